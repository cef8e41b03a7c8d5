import Verif.Spec.RuleStateProvider
import Verif.Lemmas.Rules
import Verif.Props.Regions
import Mathlib.Data.List.Induction

set_option autoImplicit false

/-! The rule state providers. -/
namespace Maliput.StateProvider

open Maliput.Rules Maliput.StateProvider.Spec
open Maliput.Phases (Result)
open Maliput.Rulebook (Book)

variable {V R : Type}

theorem validateRuleState_ok (K : Kind V R) (rule : R) (v : V) (u : Unit) :
    validateRuleState K rule v = .ok u ↔ HasState K rule v := by
  unfold validateRuleState HasState
  rw [throwUnless_ok, List.any_eq_true]

theorem checkState_ok (K : Kind V R) (b : Book) (c : Call V) :
    checkState K b c.id c.state c.next c.duration = .ok () ↔ Accepted K b c := by
  unfold checkState Accepted validateNext
  simp only [bind_ok]
  cases hn : c.next with
  | none =>
    simp only [throwUnless_ok]
    constructor
    · rintro ⟨rule, h1, u, h2, h3⟩
      refine ⟨⟨rule, h1, (validateRuleState_ok _ _ _ _).1 h2, by simp⟩, fun d hd => ?_⟩
      rw [hd] at h3; simp at h3
    · rintro ⟨⟨rule, h1, h2, -⟩, h3⟩
      refine ⟨rule, h1, (), (validateRuleState_ok _ _ _ _).2 h2, ?_⟩
      cases hd : c.duration with
      | none => rfl
      | some d => exact ((h3 d hd).2 rfl).elim
  | some n =>
    simp only [bind_ok]
    cases hd : c.duration with
    | none =>
      constructor
      · rintro ⟨rule, h1, u, h2, u', h3, -⟩
        exact ⟨⟨rule, h1, (validateRuleState_ok _ _ _ _).1 h2, fun m hm => by
          cases hm; exact (validateRuleState_ok _ _ _ _).1 h3⟩, by simp⟩
      · rintro ⟨⟨rule, h1, h2, h3⟩, -⟩
        exact ⟨rule, h1, (), (validateRuleState_ok _ _ _ _).2 h2, (), (validateRuleState_ok _ _ _ _).2 (h3 n rfl), rfl⟩
    | some d =>
      simp only [throwUnless_ok, decide_eq_true_eq]
      constructor
      · rintro ⟨rule, h1, u, h2, u', h3, h4⟩
        exact ⟨⟨rule, h1, (validateRuleState_ok _ _ _ _).1 h2, fun m hm => by
          cases hm; exact (validateRuleState_ok _ _ _ _).1 h3⟩, fun d' hd' => by cases hd'; exact ⟨h4, by simp⟩⟩
      · rintro ⟨⟨rule, h1, h2, h3⟩, h4⟩
        exact ⟨rule, h1, (), (validateRuleState_ok _ _ _ _).2 h2, (), (validateRuleState_ok _ _ _ _).2 (h3 n rfl),
          (h4 d rfl).1⟩

theorem setState_spec (K : Kind V R) (b : Book) (m : Map String (Result V)) (c : Call V) :
    (Accepted K b c → (setState K b m c.id c.state c.next c.duration).2 = .ok () ∧
      ∀ id, (setState K b m c.id c.state c.next c.duration).1.get? id = if id = c.id then some (asked c) else m.get? id) ∧
    (¬ Accepted K b c → ∃ e, setState K b m c.id c.state c.next c.duration = (m, .error e)) := by
  constructor
  · intro h
    unfold setState
    rw [(checkState_ok K b c).2 h]
    refine ⟨rfl, fun id => ?_⟩
    simp only
    rw [Map.get?_set]
    rfl
  · intro h
    unfold setState
    generalize hc : checkState K b c.id c.state c.next c.duration = o
    rcases o with e | ⟨⟨⟩⟩
    · exact ⟨e, rfl⟩
    · exact (h ((checkState_ok K b c).1 hc)).elim

theorem run_snoc (K : Kind V R) (calls : List (Book × Call V)) (x : Book × Call V) :
    run K (calls ++ [x]) = (setState K x.1 (run K calls) x.2.id x.2.state x.2.next x.2.duration).1 := by simp [run]

theorem foldl_min_spec (es : List (String × R)) : ∀ k : String,
    (∀ e ∈ es, es.foldl (fun k e => min k e.1) k ≤ e.1) ∧ es.foldl (fun k e => min k e.1) k ≤ k ∧
      (es.foldl (fun k e => min k e.1) k = k ∨ ∃ e ∈ es, es.foldl (fun k e => min k e.1) k = e.1) := by
  induction es with
  | nil => intro k; simp
  | cons e es ih =>
    intro k
    obtain ⟨h1, h2, h3⟩ := ih (min k e.1)
    rw [List.foldl_cons]
    refine ⟨?_, le_trans h2 (min_le_left _ _), ?_⟩
    · intro x hx
      rcases List.mem_cons.1 hx with rfl | hx
      · exact le_trans h2 (min_le_right _ _)
      · exact h1 x hx
    · rcases h3 with h3 | ⟨x, hx, h3⟩
      · rcases min_choice k e.1 with h | h
        · exact .inl (h3.trans h)
        · exact .inr ⟨e, by simp, h3.trans h⟩
      · exact .inr ⟨x, by simp [hx], h3⟩

/-- The first key is the smallest one. -/
theorem firstKey_spec (l : List (String × R)) :
    (firstKey l = none ↔ l = []) ∧
    (∀ id, firstKey l = some id → (∃ e ∈ l, e.1 = id) ∧ ∀ e ∈ l, id ≤ e.1) := by
  cases l with
  | nil => simp [firstKey]
  | cons e es =>
    obtain ⟨h1, h2, h3⟩ := foldl_min_spec es e.1
    simp only [firstKey, reduceCtorEq, Option.some.injEq, List.mem_cons, true_and]
    rintro id rfl
    refine ⟨?_, ?_⟩
    · rcases h3 with h3 | ⟨x, hx, h3⟩
      · exact ⟨e, .inl rfl, h3.symm⟩
      · exact ⟨x, .inr hx, h3.symm⟩
    · rintro x (rfl | hx)
      · exact h2
      · exact h1 x hx

open Classical in
/-- The rules found for a position. -/
theorem filteredRules_spec (K : Kind V R) (b : Book) (hz : ValidZones K b) (lane : String) (s : ℚ) (hs : 0 ≤ s)
    (type : String) (tol : ℚ) (ht : 0 ≤ tol) :
    ∃ l, filteredRules K b lane s type tol = .ok l ∧
      ∀ id rule, (id, rule) ∈ l ↔
        (K.all b).get? id = some rule ∧ K.typeId rule = type ∧ InZone (K.zone rule) lane s tol := by
  have hzf : ∀ e ∈ (K.all b).entries, zoneFilter K lane s tol e.2 = .ok (decide (InZone (K.zone e.2) lane s tol)) := by
    rintro ⟨id, rule⟩ he
    have hr : SRange.make s s = .ok ⟨s, s⟩ := by
      simp [SRange.make, throwUnless, hs, bind, Except.bind, pure, Except.pure]
    obtain ⟨r, h1, h2⟩ := Props.laneSRoute_intersects_iff_partial ⟨K.zone rule⟩ ⟨[⟨lane, ⟨s, s⟩⟩]⟩
      (fun z hzm => hz id rule (Map.get?_eq_some.2 he) z hzm)
      (fun z hzm => by
        simp only [List.mem_singleton] at hzm
        subst hzm; exact ⟨hs, hs⟩)
      tol ht (by simp)
    unfold zoneFilter
    rw [hr]
    simp only [bind, Except.bind]
    rw [h1]
    congr 1
    rw [Bool.eq_iff_iff, h2, decide_eq_true_eq]
    unfold Maliput.Spec.RoutesOverlap InZone Maliput.Spec.CloseLaneRanges
    simp only [List.mem_singleton, exists_eq_left, Props.close_point_iff]
  unfold filteredRules filterMap
  have ht' : throwUnless (decide (tol ≥ 0)) = .ok () := throwUnless_ok.2 (by simpa using ht)
  rw [ht']
  simp only [bind, Except.bind]
  have h1 : (K.all b).entries.filterM (fun e => (Except.ok (decide (K.typeId e.2 = type)) : Except Err Bool)) =
      .ok ((K.all b).entries.filter (fun e => decide (K.typeId e.2 = type))) :=
    filterM_eq_filter (fun e _ => rfl)
  rw [h1]
  simp only
  rw [filterM_eq_filter (p := fun e => decide (InZone (K.zone e.2) lane s tol))
    (fun e he => hzf e (List.mem_filter.1 he).1)]
  refine ⟨_, rfl, fun id rule => ?_⟩
  simp only [List.mem_filter, decide_eq_true_eq, Map.get?_eq_some]
  tauto

end Maliput.StateProvider
