import Verif.Lemmas.RuleStateProvider
import Verif.Lemmas.RuleRegistry
import Verif.Props.Rules
import Verif.Props.Rulebook

set_option autoImplicit false

/-!
C28 (states reported by the rule state providers) and C52 (the state at a road position).

C28 is false of the code: because `operator==` of rule states is not symmetric (C31), `SetState`
accepts states that list related ids the rule's states do not list (`setState_extra_ids`).
-/
namespace Maliput.Props

open Maliput.Rules Maliput.Rules.Spec Maliput.StateProvider
open Maliput.StateProvider.Spec (HasState asked IsLatest InZone AppliesAt)
open Maliput.Phases (Result)
open Maliput.Rulebook (Book)

variable {V R : Type}

/-! ### C28 -/

/-- C28: `GetState(id)` returns what the latest accepted `SetState` for `id` gave, and nothing exactly if
no `SetState` for `id` was accepted. -/
theorem stateProvider_latest (K : Kind V R) (calls : List (Book × Call V)) (id : String) :
    (∀ r, getState (run K calls) id = some r ↔ ∃ b c, IsLatest K calls b c ∧ c.id = id ∧ r = asked c) ∧
    (getState (run K calls) id = none ↔ ∀ x ∈ calls, x.2.id = id → ¬ StateProvider.Spec.Accepted K x.1 x.2) := by
  have hstep : ∀ (calls : List (Book × Call V)) (x : Book × Call V) (b : Book) (c : Call V),
      IsLatest K (calls ++ [x]) b c ↔ (x = (b, c) ∧ StateProvider.Spec.Accepted K b c) ∨
        (IsLatest K calls b c ∧ ¬ (x.2.id = c.id ∧ StateProvider.Spec.Accepted K x.1 x.2)) := by
    intro calls x b c
    constructor
    · rintro ⟨pre, post, h, ha, hno⟩
      rcases List.eq_nil_or_concat post with rfl | ⟨post', y, rfl⟩
      · obtain ⟨-, h'⟩ := List.append_inj' h rfl
        simp only [List.cons.injEq, and_true] at h'
        exact .inl ⟨h', ha⟩
      · have h' : calls ++ [x] = (pre ++ (b, c) :: post') ++ [y] := by rw [h]; simp
        obtain ⟨rfl, h''⟩ := List.append_inj' h' rfl
        simp only [List.cons.injEq, and_true] at h''
        subst h''
        exact .inr ⟨⟨pre, post', rfl, ha, fun y hy => hno y (by simp [hy])⟩, fun g => hno x (by simp) g.1 g.2⟩
    · rintro (⟨rfl, ha⟩ | ⟨⟨pre, post, rfl, ha, hno⟩, hn⟩)
      · exact ⟨calls, [], rfl, ha, by simp⟩
      · refine ⟨pre, post ++ [x], by simp, ha, fun y hy => ?_⟩
        rw [List.mem_append, List.mem_singleton] at hy
        rcases hy with hy | rfl
        · exact hno y hy
        · exact fun h1 h2 => hn ⟨h1, h2⟩
  unfold getState
  induction calls using List.reverseRecOn with
  | nil =>
    constructor
    · intro r
      simp only [run, List.foldl_nil, Map.get?_empty, reduceCtorEq, false_iff]
      rintro ⟨b, c, ⟨pre, post, h, -⟩, -⟩
      simp at h
    · simp [run]
  | append_singleton calls x ih =>
    obtain ⟨h1, h2⟩ := setState_spec K x.1 (run K calls) x.2
    by_cases ha : StateProvider.Spec.Accepted K x.1 x.2
    · obtain ⟨-, h3⟩ := h1 ha
      rw [run_snoc, h3]
      by_cases hid : id = x.2.id
      · subst hid
        rw [if_pos rfl]
        constructor
        · intro r
          simp only [Option.some.injEq]
          constructor
          · rintro rfl; exact ⟨x.1, x.2, (hstep _ _ _ _).2 (.inl ⟨rfl, ha⟩), rfl, rfl⟩
          · rintro ⟨b, c, hl, hc, rfl⟩
            rcases (hstep _ _ _ _).1 hl with ⟨rfl, -⟩ | ⟨-, hn⟩
            · rfl
            · exact (hn ⟨hc.symm, ha⟩).elim
        · simp only [reduceCtorEq, false_iff]
          intro h
          exact h x (by simp) rfl ha
      · rw [if_neg hid]
        constructor
        · intro r
          rw [ih.1]
          constructor
          · rintro ⟨b, c, hl, rfl, hr⟩
            exact ⟨b, c, (hstep _ _ _ _).2 (.inr ⟨hl, fun g => hid g.1.symm⟩), rfl, hr⟩
          · rintro ⟨b, c, hl, rfl, hr⟩
            rcases (hstep _ _ _ _).1 hl with ⟨rfl, -⟩ | ⟨hl, -⟩
            · exact (hid rfl).elim
            · exact ⟨b, c, hl, rfl, hr⟩
        · rw [ih.2]
          constructor
          · intro h y hy
            rw [List.mem_append, List.mem_singleton] at hy
            rcases hy with hy | rfl
            · exact h y hy
            · exact fun he => (hid he.symm).elim
          · intro h y hy
            exact h y (by simp [hy])
    · obtain ⟨e, h3⟩ := h2 ha
      rw [run_snoc, h3]
      constructor
      · intro r
        rw [ih.1]
        refine exists_congr fun b => exists_congr fun c => and_congr_left fun _ => ?_
        rw [hstep]
        constructor
        · intro h; exact .inr ⟨h, fun g => ha g.2⟩
        · rintro (⟨rfl, g⟩ | ⟨h, -⟩)
          · exact (ha g).elim
          · exact h
      · rw [ih.2]
        constructor
        · intro h y hy
          rw [List.mem_append, List.mem_singleton] at hy
          rcases hy with hy | rfl
          · exact h y hy
          · exact fun _ => ha
        · intro h y hy
          exact h y (by simp [hy])

/-- C28: `SetState` succeeds exactly under the conditions of `Accepted`; otherwise it throws and the
states do not change. -/
theorem stateProvider_accepts (K : Kind V R) (b : Book) (m : Map String (Result V)) (c : Call V) :
    (StateProvider.Spec.Accepted K b c → (setState K b m c.id c.state c.next c.duration).2 = .ok ()) ∧
    (¬ StateProvider.Spec.Accepted K b c → ∃ e, setState K b m c.id c.state c.next c.duration = (m, .error e)) :=
  ⟨fun h => ((setState_spec K b m c).1 h).1, (setState_spec K b m c).2⟩

/-- `v` is a state of the rule up to additional related ids listed under the same names. -/
def DiscreteStateOf (rule : DiscreteValueRule) (v : DiscreteValue) : Prop :=
  ∃ t ∈ rule.states, t.value = v.value ∧ t.severity = v.severity ∧
    Within t.relatedRules v.relatedRules ∧ Within t.relatedUniqueIds v.relatedUniqueIds

/-- `v` is a state of the rule up to additional related ids listed under the same names. -/
def RangeStateOf (rule : RangeValueRule) (v : Rules.Range) : Prop :=
  ∃ t ∈ rule.states, t.min = v.min ∧ t.max = v.max ∧ t.description = v.description ∧ t.severity = v.severity ∧
    Within t.relatedRules v.relatedRules ∧ Within t.relatedUniqueIds v.relatedUniqueIds

/-- C28 for discrete value rules: the reported state, and the next state, are states of the rule with
that id that was in the rulebook when they were set, up to additional related ids; a duration is
positive.  Missing: that the related ids are the same, which is false (`setState_extra_ids`). -/
theorem discreteProvider_reports_partial (calls : List (Book × Call DiscreteValue)) (id : String)
    (r : Result DiscreteValue) (h : getState (run discreteKind calls) id = some r) :
    ∃ x ∈ calls, ∃ rule, x.1.discreteValueRules.get? id = some rule ∧ DiscreteStateOf rule r.state ∧
      ∀ n d, r.next = some (n, d) → DiscreteStateOf rule n ∧ ∀ t, d = some t → 0 < t := by
  obtain ⟨b, c, ⟨pre, post, rfl, ⟨⟨rule, hg, hs, hn⟩, hd⟩, -⟩, rfl, rfl⟩ := ((stateProvider_latest _ _ _).1 r).1 h
  have hst : ∀ v, HasState discreteKind rule v → DiscreteStateOf rule v := by
    rintro v ⟨t, ht, he⟩
    have he' : DiscreteValue.eq t v = true := he
    rw [discreteValueEq_iff, stateEq_iff] at he'
    exact ⟨t, ht, he'.1, he'.2.1, he'.2.2.1, he'.2.2.2⟩
  refine ⟨(b, c), by simp, rule, Map.at!_ok.1 hg, hst _ hs, fun n d hnd => ?_⟩
  cases hc : c.next with
  | none => simp [asked, hc] at hnd
  | some n' =>
    simp only [asked, hc, Option.map_some, Option.some.injEq, Prod.mk.injEq] at hnd
    obtain ⟨rfl, rfl⟩ := hnd
    exact ⟨hst _ (hn _ hc), fun t ht => (hd t ht).1⟩

/-- C28 for range value rules; see `discreteProvider_reports_partial`. -/
theorem rangeProvider_reports_partial (calls : List (Book × Call Rules.Range)) (id : String)
    (r : Result Rules.Range) (h : getState (run rangeKind calls) id = some r) :
    ∃ x ∈ calls, ∃ rule, x.1.rangeValueRules.get? id = some rule ∧ RangeStateOf rule r.state ∧
      ∀ n d, r.next = some (n, d) → RangeStateOf rule n ∧ ∀ t, d = some t → 0 < t := by
  obtain ⟨b, c, ⟨pre, post, rfl, ⟨⟨rule, hg, hs, hn⟩, hd⟩, -⟩, rfl, rfl⟩ := ((stateProvider_latest _ _ _).1 r).1 h
  have hst : ∀ v, HasState rangeKind rule v → RangeStateOf rule v := by
    rintro v ⟨t, ht, he⟩
    have he' : Range.eq t v = true := he
    rw [rangeEq_iff, stateEq_iff] at he'
    exact ⟨t, ht, he'.1, he'.2.1, he'.2.2.1, he'.2.2.2.1, he'.2.2.2.2.1, he'.2.2.2.2.2⟩
  refine ⟨(b, c), by simp, rule, Map.at!_ok.1 hg, hst _ hs, fun n d hnd => ?_⟩
  cases hc : c.next with
  | none => simp [asked, hc] at hnd
  | some n' =>
    simp only [asked, hc, Option.map_some, Option.some.injEq, Prod.mk.injEq] at hnd
    obtain ⟨rfl, rfl⟩ := hnd
    exact ⟨hst _ (hn _ hc), fun t ht => (hd t ht).1⟩

theorem within_empty {a b : Map String (List String)} (h : Within a b) (hb : b = .empty) : a = .empty := by
  subst hb
  have : a.entries = [] := by
    rw [List.eq_nil_iff_forall_not_mem]
    rintro ⟨k, l⟩ hkl
    have := ((h k).1).1 (Map.has_iff.2 ⟨l, Map.get?_eq_some.2 hkl⟩)
    simp [Map.has] at this
  cases a
  simp only at this
  subst this
  rfl

/-- C28: a reported state without related ids is one of the rule's states. -/
theorem discreteStateOf_exact (rule : DiscreteValueRule) (v : DiscreteValue) (h : DiscreteStateOf rule v)
    (hr : v.relatedRules = .empty) (hu : v.relatedUniqueIds = .empty) : v ∈ rule.states := by
  obtain ⟨t, ht, h1, h2, h3, h4⟩ := h
  have a := within_empty h3 hr
  have b := within_empty h4 hu
  have : t = v := by
    obtain ⟨⟨s, rr, ru⟩, tv⟩ := t
    obtain ⟨⟨s', rr', ru'⟩, vv⟩ := v
    simp_all
  exact this ▸ ht

/-- C28: a reported range without related ids is one of the rule's ranges. -/
theorem rangeStateOf_exact (rule : RangeValueRule) (v : Rules.Range) (h : RangeStateOf rule v)
    (hr : v.relatedRules = .empty) (hu : v.relatedUniqueIds = .empty) : v ∈ rule.states := by
  obtain ⟨t, ht, h1, h2, h3, h4, h5, h6⟩ := h
  have a := within_empty h5 hr
  have b := within_empty h6 hu
  have : t = v := by
    obtain ⟨⟨s, rr, ru⟩, tv, tw, tx⟩ := t
    obtain ⟨⟨s', rr', ru'⟩, vv, vw, vx⟩ := v
    simp_all
  exact this ▸ ht

/-! A rulebook with one rule of two states, without related ids for "Go" and with one for "Yield". -/

def goState : DiscreteValue := ⟨⟨0, .empty, .empty⟩, "Go"⟩
def yieldState : DiscreteValue := ⟨⟨1, .ofList [("Yield Group", ["r1"])], .empty⟩, "Yield"⟩
def yieldState' : DiscreteValue := ⟨⟨1, .ofList [("Yield Group", ["r1", "r2"])], .empty⟩, "Yield"⟩
def goRule : DiscreteValueRule := ⟨"d", "Right-Of-Way", [⟨"1", 30, 40⟩, ⟨"1", 50, 60⟩], [goState, yieldState]⟩
def goBook : Book := Rulebook.run [.add (.discreteValue goRule), .add (.discreteValue { goRule with id := "e" })]

def goCalls : List (Book × Call DiscreteValue) :=
  [(goBook, ⟨"d", yieldState, none, none⟩), (goBook, ⟨"d", goState, some yieldState, some 3⟩),
   (goBook, ⟨"d", goState, none, some 3⟩), (goBook, ⟨"d", yieldState, some goState, some 0⟩), (goBook, ⟨"x", goState, none, none⟩)]

example : getState (run discreteKind goCalls) "d" = some ⟨goState, some (yieldState, some 3)⟩ ∧
    getState (run discreteKind goCalls) "e" = none := by
  constructor <;> decide +kernel

/-- C28 is false: `SetState` accepts, and `GetState` reports, a state that yields to a rule that none of
the rule's states mentions. -/
theorem setState_extra_ids : ∃ (calls : List (Book × Call DiscreteValue)) (r : Result DiscreteValue),
    getState (run discreteKind calls) "d" = some r ∧
    (∀ x ∈ calls, x.1.discreteValueRules.get? "d" = some goRule) ∧
    "r2" ∈ ids r.state.relatedRules "Yield Group" ∧
    ∀ t ∈ goRule.states, "r2" ∉ ids t.relatedRules "Yield Group" := by
  refine ⟨[(goBook, ⟨"d", yieldState', none, none⟩)], ⟨yieldState', none⟩, by decide +kernel, ?_, by decide +kernel,
    by decide +kernel⟩
  intro x hx
  rw [List.mem_singleton] at hx
  subst hx
  decide +kernel

/-- The states of a provider populated from a rulebook: every rule is in its first state. -/
theorem defaultStates_spec (K : Kind V R) (b : Book) (hK : ∀ id rule, (K.all b).get? id = some rule → K.get b id = .ok rule)
    (heq : ∀ v, K.eq v v = true) (hne : ∀ id rule, (K.all b).get? id = some rule → K.states rule ≠ []) :
    (defaultStates K b).2 = .ok () ∧
      ∀ id r, getState (defaultStates K b).1 id = some r ↔
        ∃ rule v rest, (K.all b).get? id = some rule ∧ K.states rule = v :: rest ∧ r = ⟨v, none⟩ := by
  have key : ∀ (l : List (String × R)) (m : Map String (Result V)), (l.map (·.1)).Nodup →
      (∀ e ∈ l, K.get b e.1 = .ok e.2 ∧ K.states e.2 ≠ []) →
      (populate K b m l).2 = .ok () ∧
        ∀ id r, (populate K b m l).1.get? id = some r ↔
          (∃ rule v rest, (id, rule) ∈ l ∧ K.states rule = v :: rest ∧ r = ⟨v, none⟩) ∨
          (id ∉ l.map (·.1) ∧ m.get? id = some r) := by
    intro l
    induction l with
    | nil => intro m _ _; simp [populate]
    | cons e l ih =>
      obtain ⟨k, rule⟩ := e
      intro m hn hl
      rw [List.map_cons, List.nodup_cons] at hn
      obtain ⟨hg, hs⟩ := hl (k, rule) (by simp)
      obtain ⟨v, rest, hv⟩ : ∃ v rest, K.states rule = v :: rest := by
        cases h : K.states rule with
        | nil => exact (hs h).elim
        | cons v rest => exact ⟨v, rest, rfl⟩
      have hacc : StateProvider.Spec.Accepted K b (⟨k, v, none, none⟩ : Call V) :=
        ⟨⟨rule, hg, ⟨v, by simp [hv], heq v⟩, by simp⟩, by simp⟩
      obtain ⟨a1, a2⟩ := (setState_spec K b m ⟨k, v, none, none⟩).1 hacc
      simp only at a1 a2
      unfold populate
      simp only [hv]
      generalize ho : setState K b m k v none none = o at a1 a2
      obtain ⟨m', o⟩ := o
      simp only at a1 a2
      subst a1
      obtain ⟨h1, h2⟩ := ih m' hn.2 (fun e he => hl e (by simp [he]))
      refine ⟨h1, fun id r => ?_⟩
      simp only
      rw [h2, a2]
      simp only [asked, Option.map_none, List.mem_cons, Prod.mk.injEq, List.map_cons, not_or]
      constructor
      · rintro (⟨rule', v', rest', h3, h4⟩ | ⟨h3, h4⟩)
        · exact .inl ⟨rule', v', rest', .inr h3, h4⟩
        · split at h4
          · next hid =>
            subst hid
            exact .inl ⟨rule, v, rest, .inl ⟨rfl, rfl⟩, hv, (Option.some.inj h4).symm⟩
          · next hid => exact .inr ⟨⟨hid, h3⟩, h4⟩
      · rintro (⟨rule', v', rest', ⟨rfl, rfl⟩ | h3, h4, h5⟩ | ⟨⟨h3, h4⟩, h5⟩)
        · refine .inr ⟨hn.1, ?_⟩
          rw [hv] at h4
          obtain ⟨rfl, -⟩ := List.cons.inj h4
          rw [if_pos rfl, h5]
        · exact .inl ⟨rule', v', rest', h3, h4, h5⟩
        · exact .inr ⟨h4, by rw [if_neg h3]; exact h5⟩
  obtain ⟨h1, h2⟩ := key (K.all b).entries .empty (K.all b).nodup (fun e he =>
    ⟨hK e.1 e.2 (Map.get?_eq_some.2 he), hne e.1 e.2 (Map.get?_eq_some.2 he)⟩)
  refine ⟨h1, fun id r => ?_⟩
  unfold getState defaultStates
  rw [h2]
  simp [Map.get?_eq_some]

/-- The default discrete value rule states. -/
theorem defaultStates_discrete (b : Book) (hne : ∀ id rule, b.discreteValueRules.get? id = some rule → rule.states ≠ []) :
    (defaultStates discreteKind b).2 = .ok () ∧
      ∀ id r, getState (defaultStates discreteKind b).1 id = some r ↔
        ∃ rule v rest, b.discreteValueRules.get? id = some rule ∧ rule.states = v :: rest ∧ r = ⟨v, none⟩ :=
  defaultStates_spec discreteKind b (fun _ _ h => Map.at!_ok.2 h) RuleRegistry.DiscreteValue.eq_refl hne

/-- The default range value rule states. -/
theorem defaultStates_range (b : Book) (hne : ∀ id rule, b.rangeValueRules.get? id = some rule → rule.states ≠ []) :
    (defaultStates rangeKind b).2 = .ok () ∧
      ∀ id r, getState (defaultStates rangeKind b).1 id = some r ↔
        ∃ rule v rest, b.rangeValueRules.get? id = some rule ∧ rule.states = v :: rest ∧ r = ⟨v, none⟩ :=
  defaultStates_spec rangeKind b (fun _ _ h => Map.at!_ok.2 h) RuleRegistry.Range.eq_refl hne

example : (defaultStates discreteKind goBook).2 = .ok () ∧
    getState (defaultStates discreteKind goBook).1 "e" = some ⟨goState, none⟩ := by
  constructor <;> decide +kernel

/-! ### C52 -/

/-- C52: the state at a road position.  A negative tolerance throws.  Otherwise nothing is returned
if no rule of the type applies there, and else the state of the applicable rule with the smallest id;
if that rule has no state, the call throws. -/
theorem getStateAt_spec (K : Kind V R) (b : Book) (m : Map String (Result V)) (lane : String) (s : ℚ)
    (type : String) (tol : ℚ) :
    (tol < 0 → getStateAt K b m lane s type tol = .error .throws) ∧
    (0 ≤ tol → 0 ≤ s → StateProvider.Spec.ValidZones K b →
      ((∀ id, ¬ AppliesAt K b lane s type tol id) → getStateAt K b m lane s type tol = .ok none) ∧
      ((∃ id, AppliesAt K b lane s type tol id) → ∃ id, AppliesAt K b lane s type tol id ∧
        (∀ id', AppliesAt K b lane s type tol id' → id ≤ id') ∧
        (∀ r, getState m id = some r → getStateAt K b m lane s type tol = .ok (some r)) ∧
        (getState m id = none → getStateAt K b m lane s type tol = .error .throws))) := by
  constructor
  · intro ht
    unfold getStateAt filteredRules
    simp only [throwUnless, ge_iff_le, not_le.2 ht, decide_false, Bool.false_eq_true, if_false]
    rfl
  · intro ht hs hz
    obtain ⟨l, h1, h2⟩ := filteredRules_spec K b hz lane s hs type tol ht
    obtain ⟨k1, k2⟩ := firstKey_spec l
    unfold getStateAt
    rw [h1]
    simp only [bind, Except.bind]
    constructor
    · intro hno
      have hl : l = [] := by
        rw [List.eq_nil_iff_forall_not_mem]
        rintro ⟨id, rule⟩ he
        exact hno id ⟨rule, (h2 id rule).1 he⟩
      rw [k1.2 hl]; rfl
    · rintro ⟨id, rule, ha⟩
      have hl : l ≠ [] := by
        intro h
        have := (h2 id rule).2 ha
        rw [h] at this; simp at this
      obtain ⟨k, hk⟩ := Option.ne_none_iff_exists'.1 (fun h => hl (k1.1 h))
      obtain ⟨⟨⟨k', rule'⟩, he, rfl⟩, hmin⟩ := k2 k hk
      refine ⟨k', ⟨rule', (h2 _ _).1 he⟩, ?_, ?_, ?_⟩
      · rintro id' ⟨rule'', ha''⟩
        exact hmin (id', rule'') ((h2 _ _).2 ha'')
      · intro r hr
        rw [hk]
        simp only
        unfold getState at hr
        rw [hr]; rfl
      · intro hr
        rw [hk]
        simp only
        unfold getState at hr
        rw [hr]

/-- C52 for the phased provider: the rule is chosen in the same way, its state is the one of
`GetState(rule id)` (C29). -/
theorem phasedStateAt_spec (b : Book) (rings : Phases.Book) (p : Phases.Provider) (m : Map String (Result DiscreteValue))
    (lane : String) (s : ℚ) (type : String) (tol : ℚ) :
    (tol < 0 → phasedStateAt b rings p m lane s type tol = .error .throws) ∧
    (0 ≤ tol → 0 ≤ s → StateProvider.Spec.ValidZones discreteKind b →
      ((∀ id, ¬ AppliesAt discreteKind b lane s type tol id) → phasedStateAt b rings p m lane s type tol = .ok none) ∧
      ((∃ id, AppliesAt discreteKind b lane s type tol id) → ∃ id, AppliesAt discreteKind b lane s type tol id ∧
        (∀ id', AppliesAt discreteKind b lane s type tol id' → id ≤ id') ∧
        phasedStateAt b rings p m lane s type tol = Phases.discreteState rings p m id)) := by
  constructor
  · intro ht
    unfold phasedStateAt filteredRules
    simp only [throwUnless, ge_iff_le, not_le.2 ht, decide_false, Bool.false_eq_true, if_false]
    rfl
  · intro ht hs hz
    obtain ⟨l, h1, h2⟩ := filteredRules_spec discreteKind b hz lane s hs type tol ht
    obtain ⟨k1, k2⟩ := firstKey_spec l
    unfold phasedStateAt
    rw [h1]
    simp only [bind, Except.bind]
    constructor
    · intro hno
      have hl : l = [] := by
        rw [List.eq_nil_iff_forall_not_mem]
        rintro ⟨id, rule⟩ he
        exact hno id ⟨rule, (h2 id rule).1 he⟩
      rw [k1.2 hl]; rfl
    · rintro ⟨id, rule, ha⟩
      have hl : l ≠ [] := by
        intro h
        have := (h2 id rule).2 ha
        rw [h] at this; simp at this
      obtain ⟨k, hk⟩ := Option.ne_none_iff_exists'.1 (fun h => hl (k1.1 h))
      obtain ⟨⟨⟨k', rule'⟩, he, rfl⟩, hmin⟩ := k2 k hk
      refine ⟨k', ⟨rule', (h2 _ _).1 he⟩, ?_, ?_⟩
      · rintro id' ⟨rule'', ha''⟩
        exact hmin (id', rule'') ((h2 _ _).2 ha'')
      · rw [hk]

/-- C52: at a negative `s` the call throws if the rulebook has a rule of the type, wherever it is. -/
theorem getStateAt_negative_s (K : Kind V R) (b : Book) (m : Map String (Result V)) (lane : String) (s : ℚ)
    (type : String) (tol : ℚ) (ht : 0 ≤ tol) (hs : s < 0) (h : ∃ id rule, (K.all b).get? id = some rule ∧ K.typeId rule = type) :
    getStateAt K b m lane s type tol = .error .throws := by
  obtain ⟨id, rule, hr, htype⟩ := h
  have hzf : ∀ r : R, zoneFilter K lane s tol r = .error .throws := by
    intro r
    unfold zoneFilter SRange.make
    simp [throwUnless, not_le.2 hs, bind, Except.bind]
  have h1 : (K.all b).entries.filterM (fun e => (Except.ok (decide (K.typeId e.2 = type)) : Except Err Bool)) =
      .ok ((K.all b).entries.filter (fun e => decide (K.typeId e.2 = type))) :=
    filterM_eq_filter (fun e _ => rfl)
  have ht' : throwUnless (decide (tol ≥ 0)) = .ok () := throwUnless_ok.2 (by simpa using ht)
  unfold getStateAt filteredRules filterMap
  rw [ht']
  simp only [bind, Except.bind]
  rw [h1]
  simp only
  have hmem : (id, rule) ∈ (K.all b).entries.filter (fun e => decide (K.typeId e.2 = type)) := by
    rw [List.mem_filter]
    exact ⟨Map.get?_eq_some.1 hr, by simpa using htype⟩
  generalize hl : (K.all b).entries.filter (fun e => decide (K.typeId e.2 = type)) = l at hmem
  cases l with
  | nil => simp at hmem
  | cons e es => simp [List.filterM, List.filterAuxM, hzf, bind, Except.bind]

theorem goBook_zones : StateProvider.Spec.ValidZones discreteKind goBook := by
  have he : goBook.discreteValueRules.entries = [("d", goRule), ("e", { goRule with id := "e" })] := by decide +kernel
  intro id rule h z hz
  have h' : goBook.discreteValueRules.get? id = some rule := h
  rw [Map.get?_eq_some, he] at h'
  simp only [List.mem_cons, Prod.mk.injEq, List.not_mem_nil, or_false] at h'
  rcases h' with ⟨rfl, rfl⟩ | ⟨rfl, rfl⟩ <;> (
    have hz' : z ∈ [(⟨"1", 30, 40⟩ : LaneSRange), ⟨"1", 50, 60⟩] := hz
    simp only [List.mem_cons, List.not_mem_nil, or_false] at hz'
    rcases hz' with rfl | rfl <;> constructor <;> norm_num)

example : AppliesAt discreteKind goBook "1" 41 "Right-Of-Way" 1 "d" ∧
    getStateAt discreteKind goBook (defaultStates discreteKind goBook).1 "1" 41 "Right-Of-Way" 1 = .ok (some ⟨goState, none⟩) ∧
    getStateAt discreteKind goBook (defaultStates discreteKind goBook).1 "1" 45 "Right-Of-Way" 1 = .ok none := by
  refine ⟨⟨goRule, by decide +kernel, by decide +kernel, ⟨"1", 30, 40⟩, by simp [discreteKind, goRule], rfl, 40, ?_, ?_⟩,
    by decide +kernel, by decide +kernel⟩
  · exact .inl ⟨by norm_num, le_refl _⟩
  · norm_num

end Maliput.Props
