import Verif.Lemmas.PhaseRingLoader
import Verif.Lemmas.RegistryRulebook

set_option autoImplicit false

/-! The ring that the phase ring loader builds. -/
namespace Maliput.Loader

open Maliput.Rules Maliput.TrafficLights Maliput.Phases Maliput.Yaml Maliput.Yaml.Spec Maliput.Loader.Spec

/-! ### The rules of a ring -/

/-- The rules that a document lists. -/
def SaysRules (rulebook : Rulebook.Book) (l : List Doc) (rs : List (String × DiscreteValueRule)) : Prop :=
  ((∀ k, (Rulebook.rules rulebook).discreteValueRules.get? k = none) ∧ rs = []) ∨
    List.Forall₂ (fun e (r : String × DiscreteValueRule) =>
      Reads e r.1 ∧ r.1 ≠ "" ∧ Rulebook.getDiscreteValueRule rulebook r.1 = .ok r.2) l rs

theorem entries_nil {α : Type} {m : Map String α} : m.entries = [] ↔ ∀ k, m.get? k = none := by
  constructor
  · intro h k
    rw [Map.get?_eq_none, h]
    simp
  · intro h
    by_contra hne
    obtain ⟨k, v, hv⟩ := map_entries_ne hne
    rw [h] at hv
    cases hv

theorem getRules_ok {rulebook : Rulebook.Book} {d : Doc} {rm : Map String DiscreteValueRule} :
    getRules rulebook (some d) = .ok rm ↔
      ∃ l rs, d = .seq l ∧ SaysRules rulebook l rs ∧ rm = insertAll .empty rs := by
  unfold getRules SaysRules
  rw [needSeq_bind]
  have hfold : ∀ {l : List Doc} {rm : Map String DiscreteValueRule},
      (Node.nodes (some (.seq l))).foldlM (fun (m : Map String DiscreteValueRule) x => do
        let id ← Node.asId x
        let r ← Rulebook.getDiscreteValueRule rulebook id
        return (m.emplace id r).1) .empty = .ok rm ↔
      ∃ rs, List.Forall₂ (fun e (r : String × DiscreteValueRule) =>
        Reads e r.1 ∧ r.1 ≠ "" ∧ Rulebook.getDiscreteValueRule rulebook r.1 = .ok r.2) l rs ∧
        rm = insertAll .empty rs := by
    intro l rm
    rw [nodes_seq, List.foldlM_map]
    refine foldlM_change (act := insertAll) (fun _ => rfl) insertAll_append fun x _ s s' => ?_
    simp only [bind_ok, asId_ok, pure_ok]
    constructor
    · rintro ⟨id, ⟨h1, h2⟩, r, h3, rfl⟩
      exact ⟨(id, r), ⟨h1, h2, h3⟩, rfl⟩
    · rintro ⟨⟨id, r⟩, ⟨h1, h2, h3⟩, rfl⟩
      exact ⟨id, ⟨h1, h2⟩, r, h3, rfl⟩
  constructor
  · rintro ⟨⟨l, rfl⟩, h⟩
    split at h
    · rename_i he
      rw [pure_ok] at h
      subst h
      exact ⟨l, [], rfl, Or.inl ⟨entries_nil.1 he, rfl⟩, rfl⟩
    · obtain ⟨rs, h1, rfl⟩ := hfold.1 h
      exact ⟨l, rs, rfl, Or.inr h1, rfl⟩
  · rintro ⟨l, rs, rfl, h, rfl⟩
    refine ⟨⟨l, rfl⟩, ?_⟩
    split
    · rename_i he
      rw [entries_nil] at he
      rw [pure_ok]
      rcases h with ⟨-, rfl⟩ | h
      · rfl
      · cases h with
        | nil => rfl
        | cons h1 _ =>
          have h2 := Map.at!_ok.1 h1.2.2
          exact absurd (h2.symm.trans (he _)) (by simp)
    · rename_i he
      rw [entries_nil] at he
      rcases h with ⟨h1, -⟩ | h
      · exact absurd h1 he
      · exact hfold.2 ⟨rs, h, rfl⟩

/-- A list in which a key determines the value. -/
theorem firstOf_mem {κ α : Type} [DecidableEq κ] {l : List (κ × α)}
    (hu : ∀ k v w, (k, v) ∈ l → (k, w) ∈ l → v = w) {k : κ} {v : α} : FirstOf l k v ↔ (k, v) ∈ l := by
  constructor
  · rintro ⟨as, bs, rfl, -⟩
    simp
  · intro h
    obtain ⟨w, hw⟩ := (exists_firstOf (l := l) (k := k)).2 (List.mem_map.2 ⟨_, h, rfl⟩)
    have : (k, w) ∈ l := by
      obtain ⟨as, bs, rfl, -⟩ := hw
      simp
    rwa [hu k v w h this]

theorem SaysRules.mem {rulebook : Rulebook.Book} {l : List Doc} {rs : List (String × DiscreteValueRule)}
    (h : SaysRules rulebook l rs) {k : String} {r : DiscreteValueRule} (hr : (k, r) ∈ rs) :
    Rulebook.getDiscreteValueRule rulebook k = .ok r := by
  rcases h with ⟨-, rfl⟩ | h
  · cases hr
  · obtain ⟨d, -, -, -, h⟩ := forall₂_mem_right h hr
    exact h

theorem SaysRules.get {rulebook : Rulebook.Book} {l : List Doc} {rs : List (String × DiscreteValueRule)}
    (h : SaysRules rulebook l rs) (k : String) (r : DiscreteValueRule) :
    (insertAll .empty rs).get? k = some r ↔ (k, r) ∈ rs := by
  rw [insertAll_get, firstOf_mem]
  · simp
  · intro k v w hv hw
    have h1 := h.mem hv
    rw [h.mem hw] at h1
    exact (Except.ok.inj h1).symm

theorem find_first {values : List DiscreteValue} {name : String} {v : DiscreteValue} :
    values.find? (fun w => decide (w.value = name)) = some v ↔ FirstValue values name v := by
  rw [List.find?_eq_some_iff_append]
  constructor
  · rintro ⟨hv, as, bs, rfl, hn⟩
    exact ⟨as, bs, rfl, by simpa using hv, fun w hw => by simpa using hn w hw⟩
  · rintro ⟨as, bs, rfl, hv, hn⟩
    exact ⟨by simpa using hv, as, bs, rfl, fun w hw => by simpa using hn w hw⟩

theorem find_no {values : List DiscreteValue} {name : String} :
    values.find? (fun w => decide (w.value = name)) = none ↔ ∀ w ∈ values, w.value ≠ name := by
  simp [List.find?_eq_none]

theorem defaultValue_ok {values : List DiscreteValue} {v : DiscreteValue} :
    defaultValue values = .ok v ↔ IsDefaultValue values v := by
  unfold defaultValue IsDefaultValue
  simp only [List.findSome?_cons, List.findSome?_nil, ← find_first, ← find_no]
  cases h1 : values.find? (fun w => decide (w.value = "Stop")) with
  | some w => simp [eq_comm]
  | none =>
    cases h2 : values.find? (fun w => decide (w.value = "StopThenGo")) with
    | some w => simp [eq_comm]
    | none =>
      cases h3 : values.find? (fun w => decide (w.value = "Go")) with
      | some w => simp [eq_comm]
      | none => simp

theorem Spec.IsDefaultValue.unique {values : List DiscreteValue} {v w : DiscreteValue} (h : IsDefaultValue values v)
    (h' : IsDefaultValue values w) : v = w := by
  rw [← defaultValue_ok] at h h'
  rw [h] at h'
  exact Except.ok.inj h'

theorem defaultStates_ok {rm : Map String DiscreteValueRule} {st : Map String DiscreteValue}
    (h : defaultStates rm = .ok st) (k : String) (v : DiscreteValue) :
    st.get? k = some v ↔ ∃ r, rm.get? k = some r ∧ IsDefaultValue r.states v := by
  unfold defaultStates at h
  rw [foldlM_change (act := insertAll) (R := fun (e : String × DiscreteValueRule) (x : String × DiscreteValue) =>
    x.1 = e.1 ∧ IsDefaultValue e.2.states x.2) (fun _ => rfl) insertAll_append] at h
  · obtain ⟨ts, h1, rfl⟩ := h
    rw [insertAll_get, firstOf_mem]
    · simp only [Map.get?_empty, reduceCtorEq, true_and, false_or, Map.get?_eq_some]
      constructor
      · intro hk
        obtain ⟨⟨k', r⟩, he, h2, h3⟩ := forall₂_mem_right h1 hk
        simp only at h2 h3
        subst h2
        exact ⟨r, he, h3⟩
      · rintro ⟨r, he, hv⟩
        obtain ⟨⟨k', w⟩, hx, h2, h3⟩ := forall₂_mem_left h1 he
        simp only at h2 h3
        subst h2
        rwa [hv.unique h3]
    · intro k v w hv hw
      obtain ⟨⟨k1, r⟩, he, h2, h3⟩ := forall₂_mem_right h1 hv
      obtain ⟨⟨k2, s⟩, hf, h4, h5⟩ := forall₂_mem_right h1 hw
      simp only at h2 h3 h4 h5
      subst h2 h4
      rw [← Map.get?_eq_some] at he hf
      rw [he] at hf
      obtain rfl := Option.some.inj hf
      exact h3.unique h5
  · intro e _ m m'
    simp only [bind_ok, defaultValue_ok, pure_ok]
    constructor
    · rintro ⟨v, hv, rfl⟩
      exact ⟨(e.1, v), ⟨rfl, hv⟩, rfl⟩
    · rintro ⟨⟨k, v⟩, ⟨h1, h2⟩, rfl⟩
      simp only at h1 h2
      subst h1
      exact ⟨v, h2, rfl⟩

theorem defaultStates_of {rm : Map String DiscreteValueRule}
    (h : ∀ k r, rm.get? k = some r → ∃ v, IsDefaultValue r.states v) : ∃ st, defaultStates rm = .ok st := by
  have : ∀ (l : List (String × DiscreteValueRule)) (m : Map String DiscreteValue),
      (∀ e ∈ l, ∃ v, IsDefaultValue e.2.states v) → ∃ st, l.foldlM (fun m (e : String × DiscreteValueRule) => do
        let v ← defaultValue e.2.states
        return (m.emplace e.1 v).1) m = .ok st := by
    intro l
    induction l with
    | nil => intro m _; exact ⟨m, rfl⟩
    | cons e l ih =>
      intro m hl
      obtain ⟨v, hv⟩ := hl e (by simp)
      obtain ⟨st, hst⟩ := ih (m.emplace e.1 v).1 fun x hx => hl x (by simp [hx])
      exact ⟨st, by rw [List.foldlM_cons, bind_ok]; exact ⟨_, bind_ok.2 ⟨v, defaultValue_ok.2 hv, rfl⟩, hst⟩⟩
  exact this _ _ fun e he => h e.1 e.2 (Map.get?_eq_some.2 he)

/-! ### Phases -/

/-- The map holds the rules of the list, and the states are states of these rules. -/
structure Fits (rs : List (String × DiscreteValueRule)) (rm : Map String DiscreteValueRule)
    (st : Map String DiscreteValue) : Prop where
  get : ∀ k r, rm.get? k = some r ↔ (k, r) ∈ rs
  keys : ∀ k, (∃ v, st.get? k = some v) ↔ ∃ r, (k, r) ∈ rs

theorem stateStep_ok {rs : List (String × DiscreteValueRule)} {rm : Map String DiscreteValueRule}
    {st : Map String DiscreteValue} (hf : Fits rs rm st) (e : Doc × Doc) (st' : Map String DiscreteValue) :
    stateStep rm st ⟨none, some e.1, some e.2⟩ = .ok st' ↔
      ∃ a, SaysNamed rs e a ∧ st' = assign st [a] := by
  unfold stateStep SaysNamed
  simp only [bind_ok (x := Node.asId _), bind_ok (x := Node.asString _), asId_ok, asString_ok]
  constructor
  · rintro ⟨id, ⟨h1, h2⟩, value, h3, h⟩
    split at h
    · cases h
    · rename_i r hr
      split at h
      · cases h
      · rename_i v hv
        simp only [bind_ok, pure_ok] at h
        obtain ⟨_, -, rfl⟩ := h
        exact ⟨(id, v), ⟨h1, h2, r, value, (hf.get _ _).1 hr, h3, find_first.1 hv⟩, rfl⟩
  · rintro ⟨⟨id, v⟩, ⟨h1, h2, r, value, hr, h3, hv⟩, rfl⟩
    simp only at h1 h2 hr hv
    refine ⟨id, ⟨h1, h2⟩, value, h3, ?_⟩
    rw [(hf.get _ _).2 hr]
    simp only
    rw [find_first.2 hv]
    simp only [bind_ok, pure_ok, throwUnless_ok, Map.has_iff]
    exact ⟨(), (hf.keys _).2 ⟨r, hr⟩, rfl⟩

theorem Fits.assign {rs : List (String × DiscreteValueRule)} {rm : Map String DiscreteValueRule}
    {st : Map String DiscreteValue} (hf : Fits rs rm st) {named : List (String × DiscreteValue)}
    (hn : ∀ a ∈ named, ∃ r, (a.1, r) ∈ rs) : Fits rs rm (assign st named) := by
  refine ⟨hf.get, fun k => ?_⟩
  rw [assign_keys, hf.keys]
  constructor
  · rintro (h | h)
    · obtain ⟨a, ha, rfl⟩ := List.mem_map.1 h
      exact hn a ha
    · exact h
  · exact Or.inr

theorem stateSteps_ok {rs : List (String × DiscreteValueRule)} {rm : Map String DiscreteValueRule}
    {l : List (Doc × Doc)} : ∀ {st : Map String DiscreteValue} (_ : Fits rs rm st) {st' : Map String DiscreteValue},
    (Node.items (some (.map l))).foldlM (stateStep rm) st = .ok st' ↔
      ∃ named, List.Forall₂ (SaysNamed rs) l named ∧ st' = assign st named := by
  simp only [items_map, List.foldlM_map]
  induction l with
  | nil =>
    intro st _ st'
    simp only [List.foldlM_nil, pure_ok, List.forall₂_nil_left_iff, exists_eq_left, Loader.assign, List.foldl_nil]
    exact eq_comm
  | cons e l ih =>
    intro st hf st'
    simp only [List.foldlM_cons, bind_ok, stateStep_ok hf]
    have hfit : ∀ {a}, SaysNamed rs e a → Fits rs rm (Loader.assign st [a]) := by
      rintro a ⟨-, -, r, -, hr, -⟩
      exact hf.assign fun x hx => by rw [List.mem_singleton.1 hx]; exact ⟨r, hr⟩
    constructor
    · rintro ⟨_, ⟨a, ha, rfl⟩, h⟩
      obtain ⟨named, h1, rfl⟩ := (ih (hfit ha)).1 h
      exact ⟨a :: named, .cons ha h1, rfl⟩
    · rintro ⟨_, h, rfl⟩
      cases h with
      | @cons _ a _ named ha h1 => exact ⟨_, ⟨a, ha, rfl⟩, (ih (hfit ha)).2 ⟨named, h1, rfl⟩⟩

/-- The rules that a phase names. -/
def SaysStates (rs : List (String × DiscreteValueRule)) (d : Doc) (named : List (String × DiscreteValue)) : Prop :=
  (LacksField d "RightOfWayRuleStates" ∧ named = []) ∨
    ∃ l, HasField d "RightOfWayRuleStates" (.map l) ∧ List.Forall₂ (SaysNamed rs) l named

theorem phaseStates_ok {rs : List (String × DiscreteValueRule)} {rm : Map String DiscreteValueRule}
    {st : Map String DiscreteValue} (hf : Fits rs rm st) {l : List (Doc × Doc)} {st' : Map String DiscreteValue} :
    phaseStates rm st (some (.map l)) = .ok st' ↔ ∃ named, SaysStates rs (.map l) named ∧ st' = assign st named := by
  unfold phaseStates SaysStates
  rw [field_bind]
  constructor
  · rintro (⟨h1, h⟩ | ⟨v, h1, h⟩)
    · simp only [Node.isDefined, Option.isSome_none, Bool.false_eq_true, if_false, Node.items, List.foldlM_nil, pure_ok] at h
      exact ⟨[], Or.inl ⟨h1, rfl⟩, h.symm⟩
    · simp only [Node.isDefined, Option.isSome_some, if_true, bind_ok] at h
      obtain ⟨b, hb, h⟩ := h
      cases v with
      | map l' =>
        simp only [Node.isMap, Except.ok.injEq] at hb
        subst hb
        simp only [if_true, bind_ok] at h
        obtain ⟨_, -, _, -, h⟩ := h
        obtain ⟨named, h3, rfl⟩ := (stateSteps_ok hf).1 h
        exact ⟨named, Or.inr ⟨l', h1, h3⟩, rfl⟩
      | _ =>
        simp only [Node.isMap, Except.ok.injEq] at hb
        subst hb
        cases h
  · rintro ⟨named, ⟨h1, rfl⟩ | ⟨l', h1, h2⟩, rfl⟩
    · exact Or.inl ⟨h1, rfl⟩
    · refine Or.inr ⟨_, h1, ?_⟩
      simp only [Node.isDefined, Option.isSome_some, if_true, bind_ok]
      refine ⟨true, rfl, ?_⟩
      simp only [if_true, bind_ok, throwUnless_ok]
      refine ⟨l'.length, rfl, (), ?_, (stateSteps_ok hf).2 ⟨named, h2, rfl⟩⟩
      cases h2 with
      | nil => rfl
      | @cons e a l' named ha h2 =>
        obtain ⟨-, -, r, -, hr, -⟩ := ha
        obtain ⟨v, hv⟩ := (hf.keys _).2 ⟨r, hr⟩
        have : st.entries ≠ [] := fun h => by rw [entries_nil.1 h] at hv; cases hv
        simp [this]

/-- The phases that are built. -/
def phasesFrom (st : Map String DiscreteValue) : List PhaseSays → List Phase
  | [] => []
  | x :: xs => ⟨x.id, .empty, assign st x.named, x.bulbs.map (assign .empty)⟩ :: phasesFrom (assign st x.named) xs

theorem saysPhase_iff {rs : List (String × DiscreteValueRule)} {lights : TrafficLights.Book} {d : Doc}
    {x : PhaseSays} : SaysPhase rs lights d x ↔
      FieldReads d "ID" x.id ∧ x.id ≠ "" ∧ SaysStates rs d x.named ∧ SaysBulbStates lights d x.bulbs :=
  ⟨fun h => ⟨h.id, h.idNotEmpty, h.named, h.bulbs⟩, fun h => ⟨h.1, h.2.1, h.2.2.1, h.2.2.2⟩⟩

theorem Spec.SaysPhase.rule {rs : List (String × DiscreteValueRule)} {lights : TrafficLights.Book} {d : Doc}
    {x : PhaseSays} (h : SaysPhase rs lights d x) : ∀ a ∈ x.named, ∃ r, (a.1, r) ∈ rs := by
  intro a ha
  rcases h.named with ⟨-, h⟩ | ⟨l, -, h⟩
  · rw [h] at ha
    cases ha
  · obtain ⟨e, -, -, -, r, -, hr, -⟩ := forall₂_mem_right h ha
    exact ⟨r, hr⟩

theorem phaseStep_ok {rs : List (String × DiscreteValueRule)} {rm : Map String DiscreteValueRule}
    {lights : TrafficLights.Book} (hl : BuiltLights lights) {st : Map String DiscreteValue} (hf : Fits rs rm st)
    {ps : List Phase} {d : Doc} {s' : Map String DiscreteValue × List Phase} :
    phaseStep rm lights (st, ps) (some d) = .ok s' ↔ ∃ x, SaysPhase rs lights d x ∧
      s' = (assign st x.named, ps ++ phasesFrom st [x]) := by
  unfold phaseStep
  simp only [needMap_bind, required_bind, saysPhase_iff]
  constructor
  · rintro ⟨⟨l, rfl⟩, iv, hiv, h⟩
    rw [bind_ok] at h
    obtain ⟨id, hid, h⟩ := h
    rw [bind_ok] at h
    obtain ⟨st', hst, h⟩ := h
    rw [bind_ok] at h
    obtain ⟨bulbs, hb, h⟩ := h
    rw [pure_ok] at h
    subst h
    obtain ⟨named, h1, rfl⟩ := (phaseStates_ok hf).1 hst
    obtain ⟨states, h2, rfl⟩ := (loadBulbStates_ok hl).1 hb
    obtain ⟨h3, h4⟩ := asId_ok.1 hid
    exact ⟨⟨id, named, states⟩, ⟨⟨iv, hiv, h3⟩, h4, h1, h2⟩, rfl⟩
  · rintro ⟨x, ⟨⟨iv, hiv, h3⟩, h4, h1, h2⟩, rfl⟩
    obtain ⟨l, rfl⟩ := hiv.isMap
    exact ⟨⟨l, rfl⟩, iv, hiv, bind_ok.2 ⟨x.id, asId_ok.2 ⟨h3, h4⟩, bind_ok.2 ⟨_, (phaseStates_ok hf).2 ⟨_, h1, rfl⟩,
      bind_ok.2 ⟨_, (loadBulbStates_ok hl).2 ⟨_, h2, rfl⟩, rfl⟩⟩⟩⟩

theorem phaseSteps_ok {rs : List (String × DiscreteValueRule)} {rm : Map String DiscreteValueRule}
    {lights : TrafficLights.Book} (hl : BuiltLights lights) {l : List Doc} : ∀ {st : Map String DiscreteValue}
    (_ : Fits rs rm st) {ps : List Phase} {s' : Map String DiscreteValue × List Phase},
    (Node.nodes (some (.seq l))).foldlM (phaseStep rm lights) (st, ps) = .ok s' ↔
      ∃ xs, List.Forall₂ (SaysPhase rs lights) l xs ∧
        s' = (assign st (xs.flatMap (·.named)), ps ++ phasesFrom st xs) := by
  simp only [nodes_seq, List.foldlM_map]
  induction l with
  | nil =>
    intro st _ ps s'
    simp only [List.foldlM_nil, pure_ok, List.forall₂_nil_left_iff, exists_eq_left, Loader.assign, List.foldl_nil,
      List.flatMap_nil, phasesFrom, List.append_nil]
    exact eq_comm
  | cons d l ih =>
    intro st hf ps s'
    simp only [List.foldlM_cons, bind_ok, phaseStep_ok hl hf]
    constructor
    · rintro ⟨_, ⟨x, hx, rfl⟩, h⟩
      obtain ⟨xs, h1, rfl⟩ := (ih (hf.assign hx.rule)).1 h
      exact ⟨x :: xs, .cons hx h1, by rw [List.flatMap_cons, assign_append, phasesFrom, phasesFrom]; simp [phasesFrom]⟩
    · rintro ⟨_, h, rfl⟩
      cases h with
      | @cons _ x _ xs hx h1 =>
        exact ⟨_, ⟨x, hx, rfl⟩, (ih (hf.assign hx.rule)).2 ⟨xs, h1, by
          rw [List.flatMap_cons, assign_append, phasesFrom, phasesFrom]; simp [phasesFrom]⟩⟩

end Maliput.Loader
