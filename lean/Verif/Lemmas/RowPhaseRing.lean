import Verif.Lemmas.PhaseRingErrors

set_option autoImplicit false

/-! The ring that the phase ring loader for right-of-way rules builds. -/
namespace Maliput.Loader

open Maliput.Rules Maliput.Rules.Spec Maliput.TrafficLights Maliput.Phases Maliput.Phases.Spec Maliput.Yaml
open Maliput.Yaml.Spec Maliput.Loader.Spec

/-! ### The rules of a ring -/

/-- The rules that a document lists. -/
def SaysRows (rulebook : Rulebook.Book) (l : List Doc) (rs : List (String × RightOfWayRule)) : Prop :=
  List.Forall₂ (fun e (r : String × RightOfWayRule) =>
    Reads e r.1 ∧ r.1 ≠ "" ∧ Rulebook.getRightOfWay rulebook r.1 = .ok r.2) l rs

theorem getRowRules_ok {rulebook : Rulebook.Book} {d : Doc} {rm : Map String RightOfWayRule} :
    getRowRules rulebook (some d) = .ok rm ↔
      ∃ l rs, d = .seq l ∧ SaysRows rulebook l rs ∧ rm = insertAll .empty rs := by
  unfold getRowRules SaysRows
  rw [needSeq_bind]
  have hfold : ∀ {l : List Doc} {rm : Map String RightOfWayRule},
      (Node.nodes (some (.seq l))).foldlM (fun (m : Map String RightOfWayRule) x => do
        let id ← Node.asId x
        let r ← Rulebook.getRightOfWay rulebook id
        return (m.emplace id r).1) .empty = .ok rm ↔
      ∃ rs, List.Forall₂ (fun e (r : String × RightOfWayRule) =>
        Reads e r.1 ∧ r.1 ≠ "" ∧ Rulebook.getRightOfWay rulebook r.1 = .ok r.2) l rs ∧
        rm = insertAll .empty rs := by
    intro l rm
    rw [nodes_seq, List.foldlM_map]
    refine foldlM_change (act := insertAll) (fun _ => rfl) insertAll_append fun x _ s s' => ?_
    simp only [bind_ok, asId_ok, pure_ok]
    constructor
    · rintro ⟨id, ⟨h1, h2⟩, r, h3, rfl⟩
      exact ⟨(id, r), ⟨h1, h2, h3⟩, rfl⟩
    · rintro ⟨⟨id, r⟩, ⟨h1, h2, h3⟩, rfl⟩
      exact ⟨id, ⟨h1, h2⟩, r, h3, rfl⟩
  constructor
  · rintro ⟨⟨l, rfl⟩, h⟩
    obtain ⟨rs, h1, rfl⟩ := hfold.1 h
    exact ⟨l, rs, rfl, h1, rfl⟩
  · rintro ⟨l, rs, rfl, h, rfl⟩
    exact ⟨⟨l, rfl⟩, hfold.2 ⟨rs, h, rfl⟩⟩

theorem SaysRows.get {rulebook : Rulebook.Book} {l : List Doc} {rs : List (String × RightOfWayRule)}
    (h : SaysRows rulebook l rs) (k : String) (r : RightOfWayRule) :
    (insertAll .empty rs).get? k = some r ↔ (k, r) ∈ rs := by
  have hmem : ∀ {k r}, (k, r) ∈ rs → Rulebook.getRightOfWay rulebook k = .ok r := by
    intro k r hr
    obtain ⟨d, -, -, -, h⟩ := forall₂_mem_right h hr
    exact h
  rw [insertAll_get, firstOf_mem]
  · simp
  · intro k v w hv hw
    have h1 := hmem hv
    rw [hmem hw] at h1
    exact (Except.ok.inj h1).symm

/-! ### Default states -/

theorem defaultRow_is {states : Map String RowState} {s : RowState} (h : defaultRowState states = .ok s) :
    IsDefaultRow states s := by
  unfold defaultRowState at h
  simp only [List.findSome?_cons, List.findSome?_nil] at h
  have hsome : ∀ {t : RowStateType} {e : String × RowState}, states.entries.find? (fun e => decide (e.2.type = t)) = some e →
      (∃ k, states.get? k = some e.2) ∧ e.2.type = t := by
    intro t e he
    refine ⟨⟨e.1, Map.get?_eq_some.2 (List.mem_of_find?_eq_some he)⟩, ?_⟩
    simpa using List.find?_some he
  have hnone : ∀ {t : RowStateType}, states.entries.find? (fun e => decide (e.2.type = t)) = none →
      ∀ k u, states.get? k = some u → u.type ≠ t := by
    intro t he k u hu
    simpa using List.find?_eq_none.1 he (k, u) (Map.get?_eq_some.1 hu)
  cases h1 : states.entries.find? (fun e => decide (e.2.type = .stop)) with
  | some e =>
    simp only [h1, Except.ok.injEq] at h
    subst h
    exact ⟨(hsome h1).1, Or.inl (hsome h1).2⟩
  | none =>
    cases h2 : states.entries.find? (fun e => decide (e.2.type = .stopThenGo)) with
    | some e =>
      simp only [h1, h2, Except.ok.injEq] at h
      subst h
      exact ⟨(hsome h2).1, Or.inr ⟨hnone h1, Or.inl (hsome h2).2⟩⟩
    | none =>
      cases h3 : states.entries.find? (fun e => decide (e.2.type = .go)) with
      | some e =>
        simp only [h1, h2, h3, Except.ok.injEq] at h
        subst h
        exact ⟨(hsome h3).1, Or.inr ⟨hnone h1, Or.inr (hnone h2)⟩⟩
      | none => simp [h1, h2, h3] at h

theorem defaultRow_exists {states : Map String RowState} :
    (∃ s, defaultRowState states = .ok s) ↔ ∃ k s, states.get? k = some s := by
  constructor
  · rintro ⟨s, h⟩
    obtain ⟨⟨k, hk⟩, -⟩ := defaultRow_is h
    exact ⟨k, s, hk⟩
  · rintro ⟨k, s, hk⟩
    unfold defaultRowState
    split
    · exact ⟨_, rfl⟩
    · rename_i h
      rw [List.findSome?_eq_none_iff] at h
      have := h s.type (by cases s.type <;> simp)
      rw [List.find?_eq_none] at this
      exact absurd (this (k, s) (Map.get?_eq_some.1 hk)) (by simp)

theorem defaultRow_error {states : Map String RowState} {e : Err} (h : defaultRowState states = .error e) :
    e = .aborts ∧ ∀ k, states.get? k = none := by
  have h1 : e = .aborts := by
    unfold defaultRowState at h
    split at h
    · cases h
    · injection h with h
      exact h.symm
  refine ⟨h1, fun k => ?_⟩
  cases hk : states.get? k with
  | none => rfl
  | some s =>
    obtain ⟨t, ht⟩ := defaultRow_exists.2 ⟨k, s, hk⟩
    rw [ht] at h
    cases h

/-- The default states are states of the rules. -/
theorem defaultRows_ok {rm : Map String RightOfWayRule} {st : Map String String} (h : defaultRowStates rm = .ok st) :
    (∀ k r, rm.get? k = some r → ∃ k' s, r.states.get? k' = some s) ∧
    (∀ k, (∃ s, st.get? k = some s) ↔ ∃ r, rm.get? k = some r) ∧
    ∀ k s, st.get? k = some s → ∃ r t, rm.get? k = some r ∧ IsDefaultRow r.states t ∧ s = t.id := by
  unfold defaultRowStates at h
  rw [foldlM_change (act := insertAll) (R := fun (e : String × RightOfWayRule) (x : String × String) =>
    x.1 = e.1 ∧ ∃ t, defaultRowState e.2.states = .ok t ∧ x.2 = t.id) (fun _ => rfl) insertAll_append] at h
  · obtain ⟨ts, h1, rfl⟩ := h
    refine ⟨fun k r hr => ?_, fun k => ?_, fun k s hs => ?_⟩
    · obtain ⟨x, -, -, t, ht, -⟩ := forall₂_mem_left h1 (Map.get?_eq_some.1 hr)
      exact defaultRow_exists.1 ⟨t, ht⟩
    · rw [insertAll_keys]
      simp only [Map.get?_empty, reduceCtorEq, exists_const, or_false]
      constructor
      · intro hk
        obtain ⟨x, hx, rfl⟩ := List.mem_map.1 hk
        obtain ⟨⟨k, r⟩, he, h2, -⟩ := forall₂_mem_right h1 hx
        rw [h2]
        exact ⟨r, Map.get?_eq_some.2 he⟩
      · rintro ⟨r, hr⟩
        obtain ⟨x, hx, h2, -⟩ := forall₂_mem_left h1 (Map.get?_eq_some.1 hr)
        exact List.mem_map.2 ⟨x, hx, h2⟩
    · rw [insertAll_get] at hs
      simp only [Map.get?_empty, reduceCtorEq, true_and, false_or] at hs
      obtain ⟨as, bs, rfl, -⟩ := hs
      obtain ⟨⟨k', r⟩, he, h2, t, ht, h3⟩ := forall₂_mem_right h1 (by simp : (k, s) ∈ as ++ (k, s) :: bs)
      simp only at h2 h3 ht
      subst h2
      exact ⟨r, t, Map.get?_eq_some.2 he, defaultRow_is ht, h3⟩
  · intro e _ m m'
    simp only [bind_ok, pure_ok]
    constructor
    · rintro ⟨t, ht, rfl⟩
      exact ⟨(e.1, t.id), ⟨rfl, t, ht, rfl⟩, rfl⟩
    · rintro ⟨⟨k, v⟩, ⟨h1, t, ht, h2⟩, rfl⟩
      simp only at h1 h2
      subst h1 h2
      exact ⟨t, ht, rfl⟩

theorem defaultRows_of {rm : Map String RightOfWayRule}
    (h : ∀ k r, rm.get? k = some r → ∃ k' s, r.states.get? k' = some s) : ∃ st, defaultRowStates rm = .ok st := by
  have : ∀ (l : List (String × RightOfWayRule)) (m : Map String String),
      (∀ e ∈ l, ∃ k s, e.2.states.get? k = some s) → ∃ st, l.foldlM (fun m (e : String × RightOfWayRule) => do
        let s ← defaultRowState e.2.states
        return (m.emplace e.1 s.id).1) m = .ok st := by
    intro l
    induction l with
    | nil => intro m _; exact ⟨m, rfl⟩
    | cons e l ih =>
      intro m hl
      obtain ⟨v, hv⟩ := defaultRow_exists.2 (hl e (by simp))
      obtain ⟨st, hst⟩ := ih (m.emplace e.1 v.id).1 fun x hx => hl x (by simp [hx])
      exact ⟨st, by rw [List.foldlM_cons, bind_ok]; exact ⟨_, bind_ok.2 ⟨v, hv, rfl⟩, hst⟩⟩
  exact this _ _ fun e he => h e.1 e.2 (Map.get?_eq_some.2 he)

theorem defaultRows_error {rm : Map String RightOfWayRule} {e : Err} (h : defaultRowStates rm = .error e) :
    e = .aborts ∧ ∃ k r, rm.get? k = some r ∧ ∀ k', r.states.get? k' = none := by
  unfold defaultRowStates at h
  obtain ⟨x, hx, s, hs⟩ := foldlM_error h
  rw [bind_error] at hs
  rcases hs with hs | ⟨t, -, hs⟩
  · obtain ⟨h1, h2⟩ := defaultRow_error hs
    exact ⟨h1, x.1, x.2, Map.get?_eq_some.2 hx, h2⟩
  · cases hs

/-! ### The named states -/

/-- A rule of the ring and the state named in the document. -/
def SaysNamedRow (rs : List (String × RightOfWayRule)) (e : Doc × Doc) (a : String × String) : Prop :=
  Reads e.1 a.1 ∧ a.1 ≠ "" ∧ Reads e.2 a.2 ∧ a.2 ≠ "" ∧ ∃ r, (a.1, r) ∈ rs

theorem rowSteps_ok {rs : List (String × RightOfWayRule)} {l : List (Doc × Doc)} : ∀ {st : Map String String}
    (_ : ∀ k, (∃ s, st.get? k = some s) ↔ ∃ r, (k, r) ∈ rs) {st' : Map String String},
    (Node.items (some (.map l))).foldlM rowStep st = .ok st' ↔
      ∃ named, List.Forall₂ (SaysNamedRow rs) l named ∧ st' = assign st named := by
  simp only [items_map, List.foldlM_map]
  induction l with
  | nil =>
    intro st _ st'
    simp only [List.foldlM_nil, pure_ok, List.forall₂_nil_left_iff, exists_eq_left, Loader.assign, List.foldl_nil]
    exact eq_comm
  | cons e l ih =>
    intro st hf st'
    have hstep : ∀ st1, rowStep st ⟨none, some e.1, some e.2⟩ = .ok st1 ↔ ∃ a, SaysNamedRow rs e a ∧ st1 = assign st [a] := by
      intro st1
      unfold rowStep SaysNamedRow
      simp only [bind_ok, asId_ok, pure_ok, throwUnless_ok, Map.has_iff, hf]
      constructor
      · rintro ⟨id, ⟨h1, h2⟩, s, ⟨h3, h4⟩, _, h5, rfl⟩
        exact ⟨(id, s), ⟨h1, h2, h3, h4, h5⟩, rfl⟩
      · rintro ⟨⟨id, s⟩, ⟨h1, h2, h3, h4, h5⟩, rfl⟩
        exact ⟨id, ⟨h1, h2⟩, s, ⟨h3, h4⟩, (), h5, rfl⟩
    have hfit : ∀ {a}, SaysNamedRow rs e a → ∀ k, (∃ s, (assign st [a]).get? k = some s) ↔ ∃ r, (k, r) ∈ rs := by
      rintro a ⟨-, -, -, -, r, hr⟩ k
      rw [assign_keys, hf]
      simp only [List.map_cons, List.map_nil, List.mem_singleton]
      constructor
      · rintro (rfl | h)
        · exact ⟨r, hr⟩
        · exact h
      · exact Or.inr
    simp only [List.foldlM_cons, bind_ok, hstep]
    constructor
    · rintro ⟨_, ⟨a, ha, rfl⟩, h⟩
      obtain ⟨named, h1, rfl⟩ := (ih (hfit ha)).1 h
      exact ⟨a :: named, .cons ha h1, rfl⟩
    · rintro ⟨_, h, rfl⟩
      cases h with
      | @cons _ a _ named ha h1 => exact ⟨_, ⟨a, ha, rfl⟩, (ih (hfit ha)).2 ⟨named, h1, rfl⟩⟩

/-! ### The mirrored states -/

/-- The value that mirrors a state of a rule is built. -/
def Mirrors (rulebook : Rulebook.Book) (id s : String) (v : DiscreteValue) : Prop :=
  ∃ r t d, Rulebook.getRightOfWay rulebook id = .ok r ∧ r.states.get? s = some t ∧
    v = buildRowValue r (ruleIdFrom stopTypeId id) t ∧
    Rulebook.getDiscreteValueRule rulebook (ruleIdFrom rowTypeId id) = .ok d ∧ ∃ w ∈ d.states, w.eq v = true

theorem rowValue_is' (r : RightOfWayRule) (id : String) (t : RowState) :
    IsRowValue { r with id := id } t (buildRowValue r (ruleIdFrom stopTypeId id) t) := rowValue_is { r with id := id } t

theorem Mirrors.is {rulebook : Rulebook.Book} {id s : String} {v : DiscreteValue} (h : Mirrors rulebook id s v) :
    IsMirror rulebook id s v := by
  obtain ⟨r, t, d, h1, h2, rfl, h3, w, h4, h5⟩ := h
  exact ⟨r, t, d, w, h1, h2, rowValue_is' r id t, by rwa [← rowId_eq], h4, h5⟩

theorem same_get {m m' : Map String (List String)} (h : ∀ k l, m.get? k = some l ↔ m'.get? k = some l) {a : Map String (List String)}
    (hw : Within a m) : Within a m' := by
  have hg : ∀ k, m.get? k = m'.get? k := fun k => Option.ext (h k)
  intro g
  obtain ⟨h1, h2⟩ := hw g
  refine ⟨?_, ?_⟩
  · rw [h1, Map.has_iff, Map.has_iff]
    simp only [hg]
  · unfold ids at h2 ⊢
    rwa [← hg]

theorem rowNames_unique {a b : String} {t : RowStateType} (h : (a, t) ∈ rowStateNames) (h' : (b, t) ∈ rowStateNames) :
    a = b := by
  revert h h'
  simp only [rowStateNames, List.mem_cons, Prod.mk.injEq, List.not_mem_nil, or_false]
  cases t <;> simp <;> rintro rfl rfl <;> rfl

/-- The value of a state is unique up to what `operator==` sees. -/
theorem Spec.IsRowValue.eq {r : RightOfWayRule} {t : RowState} {v v' w : DiscreteValue} (h : IsRowValue r t v)
    (h' : IsRowValue r t v') (hw : w.eq v = true) : w.eq v' = true := by
  unfold DiscreteValue.eq at hw ⊢
  rw [Bool.and_eq_true, decide_eq_true_eq, state_eq_iff'] at hw ⊢
  obtain ⟨h1, h2, h3, h4⟩ := hw
  exact ⟨h1.trans (rowNames_unique h.value h'.value), h2.trans (h.severity.trans h'.severity.symm),
    same_get (fun k l => (h.rules k l).trans (h'.rules k l).symm) h3,
    same_get (fun k l => (h.bulbs k l).trans (h'.bulbs k l).symm) h4⟩

theorem Spec.IsMirror.mirrors {rulebook : Rulebook.Book} {id s : String} {v : DiscreteValue}
    (h : IsMirror rulebook id s v) : ∃ v', Mirrors rulebook id s v' := by
  obtain ⟨r, t, d, w, h1, h2, h3, h4, h5, h6⟩ := h
  exact ⟨_, r, t, d, h1, h2, rfl, by rwa [rowId_eq], w, h5, h3.eq (rowValue_is' r id t) h6⟩

theorem mirrorStep_ok {rulebook : Rulebook.Book} {m m' : Map String DiscreteValue} {e : String × String}
    (hn : m.get? (ruleIdFrom rowTypeId e.1) = none) : mirrorStep rulebook m e = .ok m' ↔
      ∃ x : String × DiscreteValue, (x.1 = ruleIdFrom rowTypeId e.1 ∧ Mirrors rulebook e.1 e.2 x.2) ∧ m' = insertAll m [x] := by
  unfold mirrorStep Mirrors
  simp only [bind_ok (x := Rulebook.getDiscreteValueRule _ _), bind_ok (x := Rulebook.getRightOfWay _ _)]
  constructor
  · rintro ⟨d, hd, r, hr, h⟩
    split at h
    · cases h
    · rename_i t ht
      simp only [bind_ok, throwUnless_ok, pure_ok, List.any_eq_true] at h
      obtain ⟨_, ⟨w, hw, he⟩, _, -, rfl⟩ := h
      exact ⟨(_, _), ⟨rfl, r, t, d, hr, ht, rfl, hd, w, hw, he⟩, rfl⟩
  · rintro ⟨⟨k, v⟩, ⟨h1, r, t, d, hr, ht, h2, hd, w, hw, he⟩, rfl⟩
    simp only at h1 h2 he
    subst h1 h2
    refine ⟨d, hd, r, hr, ?_⟩
    rw [ht]
    simp only [bind_ok, throwUnless_ok, pure_ok, List.any_eq_true]
    exact ⟨(), ⟨w, hw, he⟩, (), (Map.emplace_new _ hn).1, rfl⟩

theorem mirrorSteps_ok {rulebook : Rulebook.Book} {l : List (String × String)} : ∀ {m m' : Map String DiscreteValue},
    (l.map (·.1)).Nodup → (∀ e ∈ l, m.get? (ruleIdFrom rowTypeId e.1) = none) →
    (l.foldlM (mirrorStep rulebook) m = .ok m' ↔ ∃ xs, List.Forall₂ (fun e (x : String × DiscreteValue) =>
      x.1 = ruleIdFrom rowTypeId e.1 ∧ Mirrors rulebook e.1 e.2 x.2) l xs ∧ m' = insertAll m xs) := by
  induction l with
  | nil =>
    intro m m' _ _
    simp only [List.foldlM_nil, pure_ok, List.forall₂_nil_left_iff, exists_eq_left, insertAll, List.foldl_nil]
    exact eq_comm
  | cons e l ih =>
    intro m m' hd hn
    rw [List.map_cons, List.nodup_cons] at hd
    rw [List.foldlM_cons]
    simp only [bind_ok, mirrorStep_ok (hn e (by simp))]
    have hnext : ∀ {x : String × DiscreteValue}, x.1 = ruleIdFrom rowTypeId e.1 →
        ∀ e' ∈ l, (insertAll m [x]).get? (ruleIdFrom rowTypeId e'.1) = none := by
      intro x hx e' he'
      cases hg : (insertAll m [x]).get? (ruleIdFrom rowTypeId e'.1) with
      | none => rfl
      | some v =>
        rcases (insertAll_keys _ _ _).1 ⟨v, hg⟩ with h | ⟨v, h⟩
        · simp only [List.map_cons, List.map_nil, List.mem_singleton, hx] at h
          exact absurd (List.mem_map.2 ⟨e', he', rowId_inj h⟩) hd.1
        · rw [hn e' (by simp [he'])] at h
          cases h
    constructor
    · rintro ⟨_, ⟨x, hx, rfl⟩, h⟩
      obtain ⟨xs, h1, rfl⟩ := (ih hd.2 (hnext hx.1)).1 h
      exact ⟨x :: xs, .cons hx h1, rfl⟩
    · rintro ⟨_, h, rfl⟩
      cases h with
      | @cons _ x _ xs hx h1 => exact ⟨_, ⟨x, hx, rfl⟩, (ih hd.2 (hnext hx.1)).2 ⟨xs, h1, rfl⟩⟩

/-- The mirrored states of all rules. -/
theorem mirror_ok {rulebook : Rulebook.Book} {st : Map String String} {m : Map String DiscreteValue}
    (h : st.entries.foldlM (mirrorStep rulebook) .empty = .ok m) :
    (∀ k, (∃ v, m.get? k = some v) ↔ ∃ id s, st.get? id = some s ∧ k = ruleIdFrom rowTypeId id) ∧
    ∀ id s v, st.get? id = some s → m.get? (ruleIdFrom rowTypeId id) = some v → Mirrors rulebook id s v := by
  obtain ⟨xs, h1, rfl⟩ := (mirrorSteps_ok st.nodup (by simp)).1 h
  constructor
  · intro k
    rw [insertAll_keys]
    simp only [Map.get?_empty, reduceCtorEq, exists_false, or_false]
    constructor
    · intro hk
      obtain ⟨x, hx, rfl⟩ := List.mem_map.1 hk
      obtain ⟨⟨id, s⟩, he, h2, -⟩ := forall₂_mem_right h1 hx
      exact ⟨id, s, Map.get?_eq_some.2 he, h2⟩
    · rintro ⟨id, s, hs, rfl⟩
      obtain ⟨x, hx, h2, -⟩ := forall₂_mem_left h1 (Map.get?_eq_some.1 hs)
      exact List.mem_map.2 ⟨x, hx, h2⟩
  · intro id s v hs hv
    rw [insertAll_get] at hv
    simp only [Map.get?_empty, reduceCtorEq, true_and, false_or] at hv
    obtain ⟨as, bs, rfl, -⟩ := hv
    obtain ⟨⟨id', s'⟩, he, h2, h3⟩ := forall₂_mem_right h1 (by simp : (ruleIdFrom rowTypeId id, v) ∈ as ++ (ruleIdFrom rowTypeId id, v) :: bs)
    simp only at h2 h3
    obtain rfl := rowId_inj h2
    rw [Map.get?_eq_some.2 he] at hs
    obtain rfl := Option.some.inj hs
    exact h3

theorem mirror_of {rulebook : Rulebook.Book} {st : Map String String}
    (h : ∀ id s, st.get? id = some s → ∃ v, Mirrors rulebook id s v) :
    ∃ m, st.entries.foldlM (mirrorStep rulebook) .empty = .ok m := by
  have : ∀ l : List (String × String), (∀ e ∈ l, ∃ v, Mirrors rulebook e.1 e.2 v) →
      ∃ xs, List.Forall₂ (fun e (x : String × DiscreteValue) =>
        x.1 = ruleIdFrom rowTypeId e.1 ∧ Mirrors rulebook e.1 e.2 x.2) l xs := by
    intro l
    induction l with
    | nil => intro _; exact ⟨[], .nil⟩
    | cons e l ih =>
      intro hl
      obtain ⟨v, hv⟩ := hl e (by simp)
      obtain ⟨xs, hxs⟩ := ih fun x hx => hl x (by simp [hx])
      exact ⟨(_, v) :: xs, .cons ⟨rfl, hv⟩ hxs⟩
  obtain ⟨xs, hxs⟩ := this st.entries fun e he => h e.1 e.2 (Map.get?_eq_some.2 he)
  exact ⟨_, (mirrorSteps_ok st.nodup (by simp)).2 ⟨xs, hxs, rfl⟩⟩

/-! ### Phases -/

/-- `p` is the phase `x`, with what the ring constructor sees. -/
def BuiltRow (rulebook : Rulebook.Book) (rs : List (String × RightOfWayRule)) (x : RowPhaseSays) (p : Phase) : Prop :=
  p.bulbStates = x.bulbs.map (assign .empty) ∧ IsRowPhase rulebook rs x p

theorem saysRowPhase_iff {rs : List (String × RightOfWayRule)} {lights : TrafficLights.Book} {d : Doc}
    {x : RowPhaseSays} : SaysRowPhase rs lights d x ↔
      FieldReads d "ID" x.id ∧ x.id ≠ "" ∧ (∃ l, HasField d "RightOfWayRuleStates" (.map l) ∧
        List.Forall₂ (SaysNamedRow rs) l x.named) ∧ SaysBulbStates lights d x.bulbs :=
  ⟨fun h => ⟨h.id, h.idNotEmpty, h.named, h.bulbs⟩, fun h => ⟨h.1, h.2.1, h.2.2.1, h.2.2.2⟩⟩

/-- The states of the rules in a phase. -/
theorem rowStates_in {rulebook : Rulebook.Book} {rl : List Doc} {rs : List (String × RightOfWayRule)}
    (hrs : SaysRows rulebook rl rs) {st : Map String String} (hst : defaultRowStates (insertAll .empty rs) = .ok st)
    {named : List (String × String)} (hn : ∀ a ∈ named, ∃ r, (a.1, r) ∈ rs) :
    (∀ k, (∃ s, st.get? k = some s) ↔ ∃ r, (k, r) ∈ rs) ∧
    (∀ id, (∃ s, (assign st named).get? id = some s) ↔ ∃ r, (id, r) ∈ rs) ∧
    ∀ id s, (assign st named).get? id = some s → RowInEffect rs named id s := by
  obtain ⟨h0, h1, h2⟩ := defaultRows_ok hst
  simp only [hrs.get] at h1 h2
  refine ⟨h1, fun id => ?_, fun id s hs => ?_⟩
  · rw [assign_keys, h1]
    constructor
    · rintro (h | h)
      · obtain ⟨a, ha, rfl⟩ := List.mem_map.1 h
        exact hn a ha
      · exact h
    · exact Or.inr
  · rcases (assign_get _ _ _ _).1 hs with h | ⟨h, hs⟩
    · exact Or.inl h
    · exact Or.inr ⟨h, h2 id s hs⟩

theorem Spec.SaysRowPhase.rule {rs : List (String × RightOfWayRule)} {lights : TrafficLights.Book} {d : Doc}
    {x : RowPhaseSays} (h : SaysRowPhase rs lights d x) : ∀ a ∈ x.named, ∃ r, (a.1, r) ∈ rs := by
  intro a ha
  obtain ⟨l, -, h⟩ := h.named
  obtain ⟨e, -, -, -, -, -, hr⟩ := forall₂_mem_right h ha
  exact hr

theorem isRowPhase_of {rulebook : Rulebook.Book} {rl : List Doc} {rs : List (String × RightOfWayRule)}
    (hrs : SaysRows rulebook rl rs) {st : Map String String} (hst : defaultRowStates (insertAll .empty rs) = .ok st)
    {x : RowPhaseSays} (hn : ∀ a ∈ x.named, ∃ r, (a.1, r) ∈ rs) {m : Map String DiscreteValue}
    (hm : (assign st x.named).entries.foldlM (mirrorStep rulebook) .empty = .ok m) :
    BuiltRow rulebook rs x ⟨x.id, assign st x.named, m, x.bulbs.map (assign .empty)⟩ := by
  obtain ⟨-, h1, h2⟩ := rowStates_in hrs hst hn
  obtain ⟨h3, h4⟩ := mirror_ok hm
  refine ⟨rfl, rfl, h1, h2, fun k => ?_, fun id s v hs hv => ?_, hasBulbStates_assign _⟩
  · rw [h3]
    constructor
    · rintro ⟨id, s, hs, rfl⟩
      obtain ⟨r, hr⟩ := (h1 id).1 ⟨s, hs⟩
      exact ⟨id, r, hr, rowId_eq id⟩
    · rintro ⟨id, r, hr, rfl⟩
      obtain ⟨s, hs⟩ := (h1 id).2 ⟨r, hr⟩
      exact ⟨id, s, hs, (rowId_eq id).symm⟩
  · rw [← rowId_eq] at hv
    exact (h4 id s v hs hv).is

theorem buildRowPhase_says {rulebook : Rulebook.Book} {lights : TrafficLights.Book} (hl : BuiltLights lights)
    {rl : List Doc} {rs : List (String × RightOfWayRule)} (hrs : SaysRows rulebook rl rs) {d : Doc} {p : Phase}
    (h : buildRowPhase rulebook (insertAll .empty rs) lights (some d) = .ok p) :
    ∃ x, SaysRowPhase rs lights d x ∧ BuiltRow rulebook rs x p ∧ ∀ r ∈ rs, ∃ k s, r.2.states.get? k = some s := by
  unfold buildRowPhase at h
  simp only [needMap_bind, required_bind] at h
  obtain ⟨⟨l, rfl⟩, iv, hiv, h⟩ := h
  rw [bind_ok] at h
  obtain ⟨id, hid, h⟩ := h
  rw [bind_ok] at h
  obtain ⟨st, hst, h⟩ := h
  rw [required_bind] at h
  obtain ⟨sv, hsv, h⟩ := h
  rw [needMap_bind] at h
  obtain ⟨⟨sl, rfl⟩, h⟩ := h
  rw [bind_ok] at h
  obtain ⟨st', hst', h⟩ := h
  rw [bind_ok] at h
  obtain ⟨m, hm, h⟩ := h
  rw [bind_ok] at h
  obtain ⟨bulbs, hb, h⟩ := h
  rw [pure_ok] at h
  subst h
  have hkeys := (rowStates_in hrs hst (named := []) (by simp)).1
  obtain ⟨named, h1, rfl⟩ := (rowSteps_ok hkeys).1 hst'
  obtain ⟨states, h2, rfl⟩ := (loadBulbStates_ok hl).1 hb
  obtain ⟨h3, h4⟩ := asId_ok.1 hid
  have hx : SaysRowPhase rs lights (.map l) ⟨id, named, states⟩ :=
    saysRowPhase_iff.2 ⟨⟨iv, hiv, h3⟩, h4, ⟨sl, hsv, h1⟩, h2⟩
  refine ⟨_, hx, isRowPhase_of hrs hst (x := ⟨id, named, states⟩) hx.rule hm, fun r hr => ?_⟩
  exact (defaultRows_ok hst).1 r.1 r.2 ((hrs.get _ _).2 hr)

theorem buildRowPhase_of {rulebook : Rulebook.Book} {lights : TrafficLights.Book} (hl : BuiltLights lights)
    {rl : List Doc} {rs : List (String × RightOfWayRule)} (hrs : SaysRows rulebook rl rs) {d : Doc} {x : RowPhaseSays}
    (hx : SaysRowPhase rs lights d x) (hr : ∀ r ∈ rs, ∃ k s, r.2.states.get? k = some s)
    (hm : ∀ id s, RowInEffect rs x.named id s → ∃ v, IsMirror rulebook id s v) :
    ∃ p, buildRowPhase rulebook (insertAll .empty rs) lights (some d) = .ok p ∧ BuiltRow rulebook rs x p := by
  obtain ⟨⟨iv, hiv, h3⟩, h4, ⟨sl, hsv, h1⟩, h2⟩ := saysRowPhase_iff.1 hx
  obtain ⟨l, rfl⟩ := hiv.isMap
  obtain ⟨st, hst⟩ := defaultRows_of (rm := insertAll .empty rs) fun k r hk => hr (k, r) ((hrs.get _ _).1 hk)
  obtain ⟨hkeys, -, hin⟩ := rowStates_in hrs hst hx.rule
  obtain ⟨m, hm⟩ := mirror_of (rulebook := rulebook) (st := assign st x.named) fun id s hs => by
    obtain ⟨v, hv⟩ := hm id s (hin id s hs)
    exact hv.mirrors
  refine ⟨_, ?_, isRowPhase_of hrs hst hx.rule hm⟩
  unfold buildRowPhase
  exact needMap_bind.2 ⟨⟨l, rfl⟩, required_bind.2 ⟨iv, hiv, bind_ok.2 ⟨x.id, asId_ok.2 ⟨h3, h4⟩, bind_ok.2 ⟨st, hst,
    required_bind.2 ⟨_, hsv, needMap_bind.2 ⟨⟨sl, rfl⟩, bind_ok.2 ⟨_, (rowSteps_ok hkeys).2 ⟨_, h1, rfl⟩, bind_ok.2 ⟨m, hm,
    bind_ok.2 ⟨_, (loadBulbStates_ok hl).2 ⟨_, h2, rfl⟩, rfl⟩⟩⟩⟩⟩⟩⟩⟩⟩

/-! ### Rings -/

theorem builtRow_ids {rulebook : Rulebook.Book} {rs : List (String × RightOfWayRule)} {xs : List RowPhaseSays}
    {ps : List Phase} (h : List.Forall₂ (BuiltRow rulebook rs) xs ps) : ps.map (·.id) = xs.map (·.id) := by
  induction h with
  | nil => rfl
  | cons h _ ih => rw [List.map_cons, List.map_cons, ih, h.2.id]

theorem sameRules_row {rulebook : Rulebook.Book} {rs : List (String × RightOfWayRule)} {x y : RowPhaseSays}
    {p q : Phase} (hp : IsRowPhase rulebook rs x p) (hq : IsRowPhase rulebook rs y q) : SameRules p q :=
  ⟨fun k => (hp.rows k).trans (hq.rows k).symm, fun k => (hp.keys k).trans (hq.keys k).symm⟩

theorem rowRing_exists {rulebook : Rulebook.Book} {rs : List (String × RightOfWayRule)} {xs : List RowPhaseSays}
    {ps : List Phase} (h : List.Forall₂ (BuiltRow rulebook rs) xs ps) {id : String}
    {next : Option (List (String × List NextPhase))} :
    (∃ r, Ring.make id ps (next.map (insertAll .empty)) = .ok r) ↔
      xs ≠ [] ∧ (xs.map (·.id)).Nodup ∧
      (∀ p ps, xs = p :: ps → p.bulbs ≠ none → ∀ q ∈ ps, SameBulbsSaid p.bulbs q.bulbs) ∧
      ∀ n, next = some n → ∀ k, k ∈ n.map (·.1) ↔ k ∈ xs.map (·.id) := by
  have hids := builtRow_ids h
  cases h with
  | nil =>
    simp only [Props.ring_make_empty, ne_eq, not_true_eq_false, false_and, iff_false]
    rintro ⟨r, h⟩
    cases h
  | @cons x p0 xs ps h0 h =>
    rw [Props.ring_make_iff, hids]
    simp only [ne_eq, reduceCtorEq, not_false_eq_true, true_and]
    refine and_congr_right fun _ => ?_
    have h1 : ∀ p ∈ ps, SameRules p0 p := by
      intro p hp
      obtain ⟨y, -, hy⟩ := forall₂_mem_right h hp
      exact sameRules_row h0.2 hy.2
    rw [and_iff_right h1]
    refine and_congr ?_ ?_
    · have hb : p0.bulbStates ≠ none ↔ x.bulbs ≠ none := by rw [h0.1]; simp
      constructor
      · rintro h' _ _ ⟨⟩ hn q hq
        obtain ⟨p, hp, hpq⟩ := forall₂_mem_left h hq
        exact (sameBulbs_iff h0.1 hpq.1).1 (h' (hb.2 hn) p hp)
      · intro h' hn p hp
        obtain ⟨y, hy, hpq⟩ := forall₂_mem_right h hp
        exact (sameBulbs_iff h0.1 hpq.1).2 (h' x xs rfl (hb.1 hn) y hy)
    · have hk : ∀ k, (∃ p ∈ p0 :: ps, p.id = k) ↔ k ∈ (x :: xs).map (·.id) := by
        intro k
        rw [← hids]
        exact List.mem_map.symm
      simp only [hk]
      cases next with
      | none => simp
      | some n => simp only [Option.map_some, Option.some.injEq, forall_eq', nextKeys_iff]

theorem rowRing_is {rulebook : Rulebook.Book} {x : RowRingSays} {ps : List Phase}
    (hb : List.Forall₂ (BuiltRow rulebook x.rules) x.phases ps) {r : Ring}
    (h : Ring.make x.id ps (x.next.map (insertAll .empty)) = .ok r) : IsRowRing rulebook x r := by
  have hids := builtRow_ids hb
  obtain ⟨h1, -, h3, -, -, -⟩ := Props.ring_wellFormed_partial _ _ _ _ h
  have hn := ((Phases.make_ok _ _ _ _).1 h).2.2.2.2.2
  refine ⟨h1, ?_, ?_, ?_⟩
  · intro y hy
    obtain ⟨p, hp, hi⟩ := forall₂_mem_left hb hy
    exact ⟨p, (h3 y.id p).2 ⟨hp, hi.2.id⟩, hi.2⟩
  · intro k p hp
    obtain ⟨hp', rfl⟩ := (h3 k p).1 hp
    obtain ⟨y, hy, hi⟩ := forall₂_mem_right hb hp'
    exact ⟨y, hy, hi.2.id.symm⟩
  · intro k l
    unfold Ring.getNextPhases
    rw [Map.at!_ok, hn]
    cases x.next with
    | none =>
      simp only [Option.map_none, Option.getD_none, noNext_keys, Map.get?_empty, true_and, reduceCtorEq, false_and,
        exists_false, or_false]
      have hk : (∃ p ∈ ps, p.id = k) ↔ k ∈ x.phases.map (·.id) := by
        rw [← hids]
        exact List.mem_map.symm
      simp only [hk]
      by_cases hkk : k ∈ x.phases.map (·.id)
      · simp only [hkk, if_true, Option.some.injEq, true_and, eq_comm]
      · simp [hkk]
    | some n =>
      simp only [Option.map_some, Option.getD_some, insertAll_get, Map.get?_empty, reduceCtorEq, true_and, false_or,
        false_and, Option.some.injEq, exists_eq_left']

theorem saysRowRing_iff {rulebook : Rulebook.Book} {lights : TrafficLights.Book} {c : Conv} {d : Doc}
    {x : RowRingSays} : SaysRowRing rulebook lights c d x ↔ FieldReads d "ID" x.id ∧ x.id ≠ "" ∧
      (∃ l, HasField d "Rules" (.seq l) ∧ SaysRows rulebook l x.rules) ∧
      (∃ l, HasField d "Phases" (.seq l) ∧ List.Forall₂ (SaysRowPhase x.rules lights) l x.phases) ∧ SaysGraph c d x.next :=
  ⟨fun h => ⟨h.id, h.idNotEmpty, h.rules, h.phases, h.next⟩,
    fun h => ⟨h.1, h.2.1, h.2.2.1, h.2.2.2.1, h.2.2.2.2⟩⟩

theorem buildRowPhaseRing_says {rulebook : Rulebook.Book} {lights : TrafficLights.Book} {c : Conv}
    (hl : BuiltLights lights) {d : Doc} {r : Ring} (h : buildRowPhaseRing rulebook lights c (some d) = .ok r) :
    ∃ x, SaysRowRing rulebook lights c d x ∧ ValidRowRing x ∧ IsRowRing rulebook x r ∧ Valid r := by
  unfold buildRowPhaseRing at h
  simp only [needMap_bind, required_bind] at h
  obtain ⟨⟨l, rfl⟩, iv, hiv, h⟩ := h
  rw [bind_ok] at h
  obtain ⟨id, hid, h⟩ := h
  rw [field_bind] at h
  rcases h with ⟨-, h⟩ | ⟨rv, hrv, h⟩
  · rw [bind_ok] at h
    obtain ⟨_, h, -⟩ := h
    cases h
  rw [bind_ok] at h
  obtain ⟨rm, hrm, h⟩ := h
  obtain ⟨rl, rs, rfl, hrs, rfl⟩ := getRowRules_ok.1 hrm
  rw [required_bind] at h
  obtain ⟨pv, hpv, h⟩ := h
  rw [needSeq_bind] at h
  obtain ⟨⟨pl, rfl⟩, h⟩ := h
  rw [bind_ok] at h
  obtain ⟨ps, hps, h⟩ := h
  rw [bind_ok] at h
  obtain ⟨o, ho, h⟩ := h
  have hps := mapM_ok hps
  rw [nodes_seq, List.forall₂_map_left_iff] at hps
  obtain ⟨xs, hxs, hbs⟩ := forall₂_choose hps fun d p hd => by
    obtain ⟨x, h1, h2, h3⟩ := buildRowPhase_says hl hrs hd
    exact ⟨x, (⟨h1, h3⟩ : SaysRowPhase rs lights d x ∧ ∀ r ∈ rs, ∃ k s, r.2.states.get? k = some s), h2⟩
  obtain ⟨hid1, hid2⟩ := asId_ok.1 hid
  rcases buildNextPhases_says ho with rfl | ⟨next, hn, hk, rfl⟩
  · obtain ⟨⟨p0, ps, h3, -⟩, -, h4, -⟩ := (Phases.make_ok _ _ _ _).1 h
    have := (h4 .empty rfl).1
    rw [h3] at this
    cases this
  · obtain ⟨h3, h4, h5, h6⟩ := (rowRing_exists hbs).1 ⟨r, h⟩
    refine ⟨⟨id, rs, xs, next⟩, saysRowRing_iff.2 ⟨⟨iv, hiv, hid1⟩, hid2, ⟨rl, hrv, hrs⟩,
      ⟨pl, hpv, hxs.imp fun _ _ h => h.1⟩, hn⟩,
      ⟨?_, h3, h4, h5, fun n hnn => ⟨h6 n hnn, fun y hy z hz => ?_⟩⟩,
      rowRing_is (x := ⟨id, rs, xs, next⟩) hbs h, _, _, _, h⟩
    · obtain ⟨x, xs', rfl⟩ := List.exists_cons_of_ne_nil h3
      obtain ⟨d, -, -, hd⟩ := forall₂_mem_right hxs (List.mem_cons_self (a := x))
      exact hd
    · rw [builtRow_ids hbs] at hk
      exact (hk n hnn y hy).2 z hz

theorem mapM_of {α β : Type} {f : α → Except Err β} {xs : List α} {ys : List β}
    (h : List.Forall₂ (fun a b => f a = .ok b) xs ys) : xs.mapM f = .ok ys := by
  induction h with
  | nil => rfl
  | cons h _ ih =>
    rw [List.mapM_cons]
    simp only [bind_ok, pure_ok]
    exact ⟨_, h, _, ih, rfl⟩

theorem buildRowPhaseRing_of {rulebook : Rulebook.Book} {lights : TrafficLights.Book} {c : Conv}
    (hl : BuiltLights lights) {d : Doc} {x : RowRingSays} (h : SaysRowRing rulebook lights c d x)
    (hv : ValidRowRing x) (hm : Mirrored rulebook x) :
    ∃ r, buildRowPhaseRing rulebook lights c (some d) = .ok r ∧ IsRowRing rulebook x r := by
  obtain ⟨⟨iv, hiv, hid⟩, hne, ⟨rl, hrl, hrs⟩, ⟨pl, hpl, hxs⟩, hn⟩ := saysRowRing_iff.1 h
  obtain ⟨l, rfl⟩ := hiv.isMap
  obtain ⟨ps, hps, hbs⟩ : ∃ ps, List.Forall₂ (fun d p => buildRowPhase rulebook (insertAll .empty x.rules) lights (some d) = .ok p) pl ps ∧
      List.Forall₂ (BuiltRow rulebook x.rules) x.phases ps := by
    have hm' : ∀ y ∈ x.phases, ∀ id s, RowInEffect x.rules y.named id s → ∃ v, IsMirror rulebook id s v := hm
    clear hm h hpl
    have hr := hv.rules
    clear hv
    generalize x.phases = ys at hxs hm' ⊢
    induction hxs with
    | nil => exact ⟨[], .nil, .nil⟩
    | cons h1 _ ih =>
      obtain ⟨ps, h2, h3⟩ := ih fun y hy => hm' y (by simp [hy])
      obtain ⟨p, h4, h5⟩ := buildRowPhase_of hl hrs h1 hr (hm' _ (by simp))
      exact ⟨p :: ps, .cons h4 h2, .cons h5 h3⟩
  obtain ⟨r, hr⟩ := (rowRing_exists hbs (id := x.id) (next := x.next)).2
    ⟨hv.nonempty, hv.phases, hv.bulbs, fun n hn => (hv.next n hn).1⟩
  refine ⟨r, ?_, rowRing_is hbs hr⟩
  unfold buildRowPhaseRing
  refine needMap_bind.2 ⟨⟨l, rfl⟩, required_bind.2 ⟨iv, hiv, bind_ok.2 ⟨x.id, asId_ok.2 ⟨hid, hne⟩, field_bind.2
    (Or.inr ⟨_, hrl, bind_ok.2 ⟨_, getRowRules_ok.2 ⟨rl, x.rules, rfl, hrs, rfl⟩, required_bind.2 ⟨_, hpl,
    needSeq_bind.2 ⟨⟨pl, rfl⟩, bind_ok.2 ⟨ps, mapM_of ?_, bind_ok.2 ⟨_, buildNextPhases_of hn ?_, hr⟩⟩⟩⟩⟩⟩)⟩⟩⟩
  · rw [nodes_seq, List.forall₂_map_left_iff]
    exact hps
  · intro n hnn y hy
    rw [builtRow_ids hbs]
    exact ⟨((hv.next n hnn).1 y.1).1 (List.mem_map.2 ⟨y, hy, rfl⟩), (hv.next n hnn).2 y hy⟩

theorem Spec.IsRowRing.covers {rulebook : Rulebook.Book} {x : RowRingSays} {r : Ring} (hv : ValidRowRing x)
    (hr : IsRowRing rulebook x r) (k : String) :
    (CoversRow r k ↔ k ∈ x.rules.map (·.1)) ∧
      (CoversDiscrete r k ↔ ∃ id ∈ x.rules.map (·.1), k = "Right-Of-Way Rule Type/" ++ id) := by
  have hkey : ∀ k, (∃ v, (k, v) ∈ x.rules) ↔ k ∈ x.rules.map (·.1) := by
    intro k
    simp
  have hphase : ∀ {k p}, r.getPhase k = some p → ∃ y, IsRowPhase rulebook x.rules y p := by
    intro k p hp
    obtain ⟨y, hy, rfl⟩ := hr.only k p hp
    obtain ⟨p', hp', hi⟩ := hr.phases y hy
    rw [hp] at hp'
    obtain rfl := Option.some.inj hp'
    exact ⟨y, hi⟩
  obtain ⟨y, ys, hy⟩ := List.exists_cons_of_ne_nil hv.nonempty
  obtain ⟨p, hp, hi⟩ := hr.phases y (by rw [hy]; simp)
  constructor
  · rw [← hkey]
    constructor
    · rintro ⟨k', q, s, hq, hs⟩
      obtain ⟨z, hz⟩ := hphase hq
      exact (hz.rows k).1 ⟨s, hs⟩
    · intro h
      obtain ⟨s, hs⟩ := (hi.rows k).2 h
      exact ⟨_, p, s, hp, hs⟩
  · have : (∃ id ∈ x.rules.map (·.1), k = "Right-Of-Way Rule Type/" ++ id) ↔
        ∃ id r, (id, r) ∈ x.rules ∧ k = "Right-Of-Way Rule Type/" ++ id := by
      simp only [← hkey, exists_and_right]
    rw [this]
    constructor
    · rintro ⟨k', q, s, hq, hs⟩
      obtain ⟨z, hz⟩ := hphase hq
      exact (hz.keys k).1 ⟨s, hs⟩
    · intro h
      obtain ⟨s, hs⟩ := (hi.keys k).2 h
      exact ⟨_, p, s, hp, hs⟩

/-! ### The book -/

theorem rowPrefix_inj {a b : String} (h : "Right-Of-Way Rule Type/" ++ a = "Right-Of-Way Rule Type/" ++ b) : a = b := by
  rw [← rowId_eq, ← rowId_eq] at h
  exact rowId_inj h

theorem separateRowRings_iff {rulebook : Rulebook.Book} {xs : List RowRingSays} {rings : List Ring}
    (h : List.Forall₂ (fun (x : RowRingSays) (r : Ring) => IsRowRing rulebook x r ∧ ∀ k,
      (CoversRow r k ↔ k ∈ x.rules.map (·.1)) ∧
      (CoversDiscrete r k ↔ ∃ id ∈ x.rules.map (·.1), k = "Right-Of-Way Rule Type/" ++ id)) xs rings) :
    Separate rings ↔ SeparateRowRings xs := by
  rw [separate_iff (X := RowRingSays) (xs := xs) (id := RowRingSays.id) (rows := fun x k => k ∈ x.rules.map (·.1))
    (discrete := fun x k => ∃ id ∈ x.rules.map (·.1), k = "Right-Of-Way Rule Type/" ++ id)]
  · unfold SeparateRowRings
    have : ∀ x y : RowRingSays, (¬ ((∃ k, k ∈ x.rules.map (·.1) ∧ k ∈ y.rules.map (·.1)) ∨
        ∃ k, (∃ id ∈ x.rules.map (·.1), k = "Right-Of-Way Rule Type/" ++ id) ∧
          ∃ id ∈ y.rules.map (·.1), k = "Right-Of-Way Rule Type/" ++ id)) ↔
        ∀ k, k ∈ x.rules.map (·.1) → k ∉ y.rules.map (·.1) := by
      intro x y
      constructor
      · intro h k hk hk'
        exact h (Or.inl ⟨k, hk, hk'⟩)
      · rintro h (⟨k, h1, h2⟩ | ⟨k, ⟨a, ha, rfl⟩, b, hb, hab⟩)
        · exact h k h1 h2
        · rw [rowPrefix_inj hab] at ha
          exact h b ha hb
    simp only [this]
  · exact h.imp fun x r ⟨h1, h2⟩ => ⟨h1.id, fun k => (h2 k).1, fun k => (h2 k).2⟩

theorem isRowRingBook_of {rulebook : Rulebook.Book} {xs : List RowRingSays} {rings : List Ring}
    (h : List.Forall₂ (fun (x : RowRingSays) (r : Ring) => IsRowRing rulebook x r ∧ ∀ k,
      (CoversRow r k ↔ k ∈ x.rules.map (·.1)) ∧
      (CoversDiscrete r k ↔ ∃ id ∈ x.rules.map (·.1), k = "Right-Of-Way Rule Type/" ++ id)) xs rings)
    (hs : Separate rings) (hv : ∀ r ∈ rings, Valid r) : IsRowRingBook rulebook xs (run (rings.map Op.add)) := by
  obtain ⟨h1, h2⟩ := rings_content hs hv
  refine ⟨fun x hx => ?_, fun id r hr => ?_, fun k hk => ?_, fun k hk => ?_⟩
  · obtain ⟨r, hr, hi, hc⟩ := forall₂_mem_left h hx
    exact ⟨r, (h1 _ _).2 ⟨hr, hi.id⟩, hi, fun k hk => ⟨((h2 k).1 r).2 ⟨hr, (hc k).1.2 hk⟩,
      ((h2 _).2.2.1 r).2 ⟨hr, (hc _).2.2 ⟨k, hk, rfl⟩⟩⟩⟩
  · obtain ⟨hm, rfl⟩ := (h1 _ _).1 hr
    obtain ⟨x, hx, hi, -⟩ := forall₂_mem_right h hm
    exact ⟨x, hx, hi.id.symm⟩
  · refine (h2 k).2.1.2 fun r hr hc => ?_
    obtain ⟨x, hx, -, hi⟩ := forall₂_mem_right h hr
    exact hk x hx ((hi k).1.1 hc)
  · refine (h2 k).2.2.2.2 fun r hr hc => ?_
    obtain ⟨x, hx, -, hi⟩ := forall₂_mem_right h hr
    obtain ⟨id, hid, he⟩ := (hi k).2.1 hc
    exact hk x hx id hid he

theorem buildRowPhaseRing_valid {rulebook : Rulebook.Book} {lights : TrafficLights.Book} {c : Conv}
    (hl : BuiltLights lights) : ∀ d r, buildRowPhaseRing rulebook lights c (some d) = .ok r → Valid r := by
  intro d r h
  obtain ⟨x, -, -, -, hv⟩ := buildRowPhaseRing_says hl h
  exact hv

/-! ### Errors -/

theorem mirrorStep_error {rulebook : Rulebook.Book} {m : Map String DiscreteValue} {x : String × String} {e : Err}
    (h : mirrorStep rulebook m x = .error e) : e = .throws ∨ (e = .outOfRange ∧
      (rulebook.discreteValueRules.get? (ruleIdFrom rowTypeId x.1) = none ∨ rulebook.rightOfWays.get? x.1 = none)) := by
  unfold mirrorStep at h
  rw [bind_error] at h
  rcases h with h | ⟨d, -, h⟩
  · obtain ⟨h1, h2⟩ := Map.at!_error.1 h
    exact Or.inr ⟨h1, Or.inl h2⟩
  rw [bind_error] at h
  rcases h with h | ⟨r, -, h⟩
  · obtain ⟨h1, h2⟩ := Map.at!_error.1 h
    exact Or.inr ⟨h1, Or.inr h2⟩
  left
  split at h
  · exact (Except.error.inj h).symm
  · rw [bind_error] at h
    rcases h with h | ⟨_, -, h⟩
    · exact throwUnless_error h
    rw [bind_error] at h
    rcases h with h | ⟨_, -, h⟩
    · exact throwUnless_error h
    · cases h

theorem buildRowPhase_error {rulebook : Rulebook.Book} {lights : TrafficLights.Book} (hl : BuiltLights lights)
    {rl : List Doc} {rs : List (String × RightOfWayRule)} (hrs : SaysRows rulebook rl rs) {n : Node} {e : Err}
    (h : buildRowPhase rulebook (insertAll .empty rs) lights n = .error e) : e = .throws ∨
      (e = .outOfRange ∧ ∃ r ∈ rs, rulebook.discreteValueRules.get? ("Right-Of-Way Rule Type/" ++ r.1) = none) ∨
      (e = .aborts ∧ ∃ r ∈ rs, ∀ k, r.2.states.get? k = none) := by
  have hbook : ∀ {k r}, (k, r) ∈ rs → rulebook.rightOfWays.get? k = some r := by
    intro k r hr
    obtain ⟨d, -, -, -, h⟩ := forall₂_mem_right hrs hr
    exact Map.at!_ok.1 h
  unfold buildRowPhase at h
  rw [bind_error] at h
  rcases h with h | ⟨_, hm, h⟩
  · exact Or.inl (OnlyThrows.needMap _ e h)
  rw [bind_error] at h
  rcases h with h | ⟨iv, -, h⟩
  · exact Or.inl (OnlyThrows.required _ _ e h)
  rw [bind_error] at h
  rcases h with h | ⟨id, -, h⟩
  · exact Or.inl (OnlyThrows.asId _ e h)
  rw [bind_error] at h
  rcases h with h | ⟨st, hst, h⟩
  · obtain ⟨h1, k, r, h2, h3⟩ := defaultRows_error h
    exact Or.inr (Or.inr ⟨h1, (k, r), (hrs.get _ _).1 h2, h3⟩)
  rw [bind_error] at h
  rcases h with h | ⟨sv, -, h⟩
  · exact Or.inl (OnlyThrows.required _ _ e h)
  rw [bind_error] at h
  rcases h with h | ⟨_, hs, h⟩
  · exact Or.inl (OnlyThrows.needMap _ e h)
  obtain ⟨sl, hs⟩ := needMap_ok.1 hs
  subst hs
  rw [bind_error] at h
  rcases h with h | ⟨st', hst', h⟩
  · left
    refine OnlyThrows.foldlM_mem (fun i _ m => ?_) _ e h
    unfold rowStep
    only_throws []
  rw [bind_error] at h
  rcases h with h | ⟨m, -, h⟩
  · obtain ⟨hkeys, -⟩ := rowStates_in hrs hst (named := []) (by simp)
    obtain ⟨named, h1, rfl⟩ := (rowSteps_ok hkeys).1 hst'
    have hn : ∀ a ∈ named, ∃ r, (a.1, r) ∈ rs := by
      intro a ha
      obtain ⟨d, -, -, -, -, -, h⟩ := forall₂_mem_right h1 ha
      exact h
    obtain ⟨-, hk, -⟩ := rowStates_in hrs hst hn
    obtain ⟨⟨id, s⟩, hx, m, h⟩ := foldlM_error h
    obtain ⟨r, hr⟩ := (hk id).1 ⟨s, Map.get?_eq_some.2 hx⟩
    rcases mirrorStep_error h with h | ⟨h, h2 | h2⟩
    · exact Or.inl h
    · exact Or.inr (Or.inl ⟨h, (id, r), hr, by rw [← rowId_eq]; exact h2⟩)
    · rw [hbook hr] at h2
      cases h2
  rw [bind_error] at h
  rcases h with h | ⟨_, -, h⟩
  · exact Or.inl (OnlyThrows.loadBulbStates hl _ e h)
  · cases h

theorem mapM_error {α β : Type} {f : α → Except Err β} {e : Err} {xs : List α} (h : xs.mapM f = .error e) :
    ∃ x ∈ xs, f x = .error e := by
  induction xs with
  | nil => cases h
  | cons x xs ih =>
    rw [List.mapM_cons, bind_error] at h
    rcases h with h | ⟨y, -, h⟩
    · exact ⟨x, by simp, h⟩
    rw [bind_error] at h
    rcases h with h | ⟨ys, -, h⟩
    · obtain ⟨z, hz, h⟩ := ih h
      exact ⟨z, by simp [hz], h⟩
    · cases h

theorem buildRowPhaseRing_error {rulebook : Rulebook.Book} {lights : TrafficLights.Book} (hl : BuiltLights lights)
    {c : Conv} {d : Doc} {e : Err} (h : buildRowPhaseRing rulebook lights c (some d) = .error e) : e = .throws ∨
      (e = .outOfRange ∧ ∃ l x id, HasField d "Rules" (.seq l) ∧ x ∈ l ∧ Reads x id ∧
        (rulebook.rightOfWays.get? id = none ∨
          rulebook.discreteValueRules.get? ("Right-Of-Way Rule Type/" ++ id) = none)) ∨
      (e = .aborts ∧ ∃ id r, Rulebook.getRightOfWay rulebook id = .ok r ∧ ∀ k, r.states.get? k = none) ∨
      (e = .ub ∧ ∃ l, HasField d "Phases" (.seq l) ∧ ∃ p ∈ l, ∃ q ∈ l,
        (∃ v, HasField p "TrafficLightStates" v) ∧ LacksField q "TrafficLightStates") := by
  unfold buildRowPhaseRing at h
  rw [bind_error] at h
  rcases h with h | ⟨_, hm, h⟩
  · exact Or.inl (OnlyThrows.needMap _ e h)
  obtain ⟨l, hm⟩ := needMap_ok.1 hm
  obtain rfl := Option.some.inj hm
  rw [bind_error] at h
  rcases h with h | ⟨iv, -, h⟩
  · exact Or.inl (OnlyThrows.required _ _ e h)
  rw [bind_error] at h
  rcases h with h | ⟨id, -, h⟩
  · exact Or.inl (OnlyThrows.asId _ e h)
  rw [bind_error] at h
  rcases h with h | ⟨rv, hrv, h⟩
  · exact Or.inl (OnlyThrows.field _ _ e h)
  rw [bind_error] at h
  rcases h with h | ⟨rm, hrm, h⟩
  · rcases field_some_ok.1 hrv with ⟨rfl, -⟩ | ⟨v, rfl, hv⟩
    · left
      exact (Except.error.inj h).symm
    · unfold getRowRules at h
      rw [bind_error] at h
      rcases h with h | ⟨_, hs, h⟩
      · exact Or.inl (OnlyThrows.needSeq _ e h)
      obtain ⟨rl, hs⟩ := needSeq_ok.1 hs
      obtain rfl := Option.some.inj hs
      rw [nodes_seq] at h
      obtain ⟨n, hn, m, h⟩ := foldlM_error h
      obtain ⟨x, hx, rfl⟩ := List.mem_map.1 hn
      rw [bind_error] at h
      rcases h with h | ⟨id, hid, h⟩
      · exact Or.inl (OnlyThrows.asId _ e h)
      rw [bind_error] at h
      rcases h with h | ⟨r, -, h⟩
      · obtain ⟨h1, h2⟩ := Map.at!_error.1 h
        exact Or.inr (Or.inl ⟨h1, rl, x, id, hv, hx, (asId_ok.1 hid).1, Or.inl h2⟩)
      · cases h
  obtain ⟨v, rfl, hv⟩ : ∃ v, rv = some v ∧ HasField (.map l) "Rules" v := by
    rcases field_some_ok.1 hrv with ⟨rfl, -⟩ | h
    · cases hrm
    · exact h
  obtain ⟨rl, rs, rfl, hrs, rfl⟩ := getRowRules_ok.1 hrm
  rw [bind_error] at h
  rcases h with h | ⟨_, hreq, h⟩
  · exact Or.inl (OnlyThrows.required _ _ e h)
  obtain ⟨pv, rfl, hpv⟩ := required_ok.1 hreq
  rw [bind_error] at h
  rcases h with h | ⟨_, hs, h⟩
  · exact Or.inl (OnlyThrows.needSeq _ e h)
  obtain ⟨pl, hs⟩ := needSeq_ok.1 hs
  obtain rfl := Option.some.inj hs
  rw [bind_error] at h
  rcases h with h | ⟨ps, hps, h⟩
  · obtain ⟨n, -, h⟩ := mapM_error h
    rcases buildRowPhase_error hl hrs h with h | ⟨h, ⟨k, r⟩, hr, h2⟩ | ⟨h, ⟨k, r⟩, hr, h2⟩
    · exact Or.inl h
    · obtain ⟨x, hx, h3, -, -⟩ := forall₂_mem_right hrs hr
      exact Or.inr (Or.inl ⟨h, rl, x, k, hv, hx, h3, Or.inr h2⟩)
    · obtain ⟨x, -, -, -, h3⟩ := forall₂_mem_right hrs hr
      exact Or.inr (Or.inr (Or.inl ⟨h, k, r, h3, h2⟩))
  have hps := mapM_ok hps
  rw [nodes_seq, List.forall₂_map_left_iff] at hps
  obtain ⟨xs, hxs, hbs⟩ := forall₂_choose hps fun d p hd => by
    obtain ⟨x, h1, h2, -⟩ := buildRowPhase_says hl hrs hd
    exact ⟨x, h1, h2⟩
  rw [bind_error] at h
  rcases h with h | ⟨o, -, h⟩
  · exact Or.inl (OnlyThrows.buildNextPhases _ _ _ e h)
  rcases make_error h with h | ⟨h, p, hp, q, hq, hpb, hqb⟩
  · exact Or.inl h
  · refine Or.inr (Or.inr (Or.inr ⟨h, pl, hpv, ?_⟩))
    obtain ⟨x, hx, hxp⟩ := forall₂_mem_right hbs hp
    obtain ⟨y, hy, hyq⟩ := forall₂_mem_right hbs hq
    obtain ⟨dp, hdp, hsp⟩ := forall₂_mem_right hxs hx
    obtain ⟨dq, hdq, hsq⟩ := forall₂_mem_right hxs hy
    refine ⟨dp, hdp, dq, hdq, ?_, ?_⟩
    · rcases hsp.bulbs with ⟨-, h⟩ | ⟨l, _, h, -⟩
      · simp [hxp.1, h] at hpb
      · exact ⟨_, h⟩
    · rcases hsq.bulbs with ⟨h, -⟩ | ⟨l, _, -, -, h⟩
      · exact h
      · simp [hyq.1, h] at hqb

end Maliput.Loader
