import Verif.Props.RuleStateProvider
import Verif.Spec.RightOfWayTools

set_option autoImplicit false

/-! C124: right of way. -/
namespace Maliput.Props

open Maliput.RightOfWay Maliput.RightOfWay.Spec
open Maliput.Rules (DiscreteValue DiscreteValueRule)

namespace RowAux

def Ok (m : Map String String) : Call → Prop
  | .add i _ => m.get? i = none
  | .set i _ => m.get? i ≠ none

theorem run_snoc (calls : List Call) (c : Call) : run (calls ++ [c]) = (c.exec (run calls)).1 := by
  simp [run, List.foldl_append]

theorem exec_ok {m : Map String String} {c : Call} (h : Ok m c) :
    (c.exec m).2 = .ok () ∧ ∀ id, (c.exec m).1.get? id = if id = c.about then some c.gives else m.get? id := by
  cases c with
  | add i s =>
    have hn := Map.emplace_new s h
    rcases he : m.emplace i s with ⟨m', b⟩
    rw [he] at hn
    obtain ⟨hb, hg⟩ := hn
    dsimp only at hb hg
    subst hb
    exact ⟨by simp only [Call.exec, addState, he], fun id => by
      simp only [Call.exec, addState, he]
      rw [hg]
      by_cases hi : id = i <;> simp [Call.about, Call.gives, hi]⟩
  | set i s =>
    obtain ⟨v, hv⟩ := Option.ne_none_iff_exists'.mp h
    have ha := Map.at!_ok.mpr hv
    exact ⟨by simp only [Call.exec, setState, ha], fun id => by
      simp only [Call.exec, setState, ha, Map.get?_set]
      by_cases hi : id = i <;> simp [Call.about, Call.gives, hi]⟩

theorem exec_bad {m : Map String String} {c : Call} (h : ¬ Ok m c) :
    (c.exec m).1 = m ∧ (c.exec m).2 = .error (refusal c) := by
  cases c with
  | add i s =>
    have he := Map.emplace_old (v := s) h
    simp only [Call.exec, addState, he, refusal, and_self]
  | set i s =>
    have ha := (Map.at!_error (e := .outOfRange)).mpr ⟨rfl, not_not.mp h⟩
    simp only [Call.exec, setState, ha, refusal, and_self]

theorem has_run (calls : List Call) : ∀ id, (run calls).get? id ≠ none ↔ Added calls id := by
  induction calls using List.reverseRecOn with
  | nil => intro id; simp [run, Added]
  | append_singleton calls c ih =>
    intro id
    rw [run_snoc]
    have hadd : Added (calls ++ [c]) id ↔ Added calls id ∨ ∃ s, c = .add id s := by
      simp only [Added, List.mem_append, List.mem_singleton, exists_or, eq_comm]
    rw [hadd, ← ih]
    by_cases h : Ok (run calls) c
    · rw [(exec_ok h).2]
      cases c with
      | add i s =>
        by_cases hi : id = i
        · subst hi; simp [Call.about]
        · simp only [Call.about, hi, if_false, Call.add.injEq, Ne.symm hi, false_and, exists_false, or_false]
      | set i s =>
        by_cases hi : id = i
        · subst hi
          have : (run calls).get? id ≠ none := h
          simp [Call.about, this]
        · simp only [Call.about, hi, if_false, reduceCtorEq, exists_false, or_false]
    · rw [(exec_bad h).1]
      cases c with
      | add i s =>
        constructor
        · exact .inl
        · rintro (h' | ⟨s', h'⟩)
          · exact h'
          · injection h' with h1 _
            subst h1
            exact h
      | set i s => simp only [reduceCtorEq, exists_false, or_false]

theorem ok_iff (calls : List Call) (c : Call) : Ok (run calls) c ↔ Accepted calls c := by
  cases c with
  | add i s => exact not_iff_not.mp ((has_run calls i).trans not_not.symm)
  | set i s => exact has_run calls i

theorem latest_snoc (calls : List Call) (x c : Call) :
    IsLatest (calls ++ [x]) c ↔ (x = c ∧ Accepted calls c) ∨
      (IsLatest calls c ∧ ¬ (x.about = c.about ∧ Accepted calls x)) := by
  constructor
  · rintro ⟨pre, post, h, ha, hno⟩
    rcases List.eq_nil_or_concat post with rfl | ⟨post', y, rfl⟩
    · obtain ⟨rfl, h'⟩ := List.append_inj' h rfl
      simp only [List.cons.injEq, and_true] at h'
      exact .inl ⟨h', ha⟩
    · have h' : calls ++ [x] = (pre ++ c :: post') ++ [y] := by rw [h]; simp
      obtain ⟨rfl, h''⟩ := List.append_inj' h' rfl
      simp only [List.cons.injEq, and_true] at h''
      subst h''
      refine .inr ⟨⟨pre, post', rfl, ha, fun p d q hp hd => hno p d (q ++ [x]) (by simp [hp]) hd⟩, fun g => ?_⟩
      exact hno post' x [] (by simp) g.1 g.2
  · rintro (⟨rfl, ha⟩ | ⟨⟨pre, post, rfl, ha, hno⟩, hn⟩)
    · exact ⟨calls, [], rfl, ha, by simp⟩
    · refine ⟨pre, post ++ [x], by simp, ha, fun p d q hp hd => ?_⟩
      rcases List.eq_nil_or_concat q with rfl | ⟨q', y, rfl⟩
      · obtain ⟨rfl, h'⟩ := List.append_inj' hp rfl
        simp only [List.cons.injEq, and_true] at h'
        subst h'
        exact fun h2 => hn ⟨hd, h2⟩
      · have h' : post ++ [x] = (p ++ d :: q') ++ [y] := by rw [hp]; simp
        obtain ⟨rfl, -⟩ := List.append_inj' h' rfl
        exact hno p d q' rfl hd

theorem get_run (calls : List Call) (id s : String) :
    (run calls).get? id = some s ↔ ∃ c, IsLatest calls c ∧ c.about = id ∧ s = c.gives := by
  induction calls using List.reverseRecOn with
  | nil =>
    constructor
    · intro h; cases h
    · rintro ⟨c, ⟨pre, post, h, _⟩, _⟩
      simp at h
  | append_singleton calls x ih =>
    rw [run_snoc]
    simp only [latest_snoc]
    by_cases h : Ok (run calls) x
    · have hx := (ok_iff calls x).mp h
      rw [(exec_ok h).2]
      by_cases hi : id = x.about
      · subst hi
        rw [if_pos rfl]
        constructor
        · rintro ⟨⟩
          exact ⟨x, .inl ⟨rfl, hx⟩, rfl, rfl⟩
        · rintro ⟨c, ⟨rfl, _⟩ | ⟨_, hn⟩, ha, rfl⟩
          · rfl
          · exact absurd ⟨ha.symm, hx⟩ hn
      · rw [if_neg hi, ih]
        constructor
        · rintro ⟨c, hc, ha, hs⟩
          exact ⟨c, .inr ⟨hc, fun g => hi (ha.symm.trans g.1.symm)⟩, ha, hs⟩
        · rintro ⟨c, ⟨rfl, _⟩ | ⟨hc, _⟩, ha, hs⟩
          · exact absurd ha.symm hi
          · exact ⟨c, hc, ha, hs⟩
    · have hx := fun g => h ((ok_iff calls x).mpr g)
      rw [(exec_bad h).1, ih]
      constructor
      · rintro ⟨c, hc, ha, hs⟩
        exact ⟨c, .inr ⟨hc, fun g => hx g.2⟩, ha, hs⟩
      · rintro ⟨c, ⟨rfl, hc⟩ | ⟨hc, _⟩, ha, hs⟩
        · exact absurd hc hx
        · exact ⟨c, hc, ha, hs⟩

end RowAux

open RowAux

/-- C124: after any history of calls, refused ones among them, the state of a right of way rule is what the latest accepted call
about it gave, without a next state, and there is none exactly if the rule was never added. -/
theorem row_state_latest (calls : List Call) (id : String) :
    (∀ r, getState (run calls) id = some r ↔ ∃ c, IsLatest calls c ∧ c.about = id ∧ r = ⟨c.gives, none⟩) ∧
    (getState (run calls) id = none ↔ ¬ Added calls id) := by
  constructor
  · intro r
    unfold getState
    rw [Option.map_eq_some_iff]
    constructor
    · rintro ⟨s, hs, rfl⟩
      obtain ⟨c, hc, ha, rfl⟩ := (get_run calls id s).mp hs
      exact ⟨c, hc, ha, rfl⟩
    · rintro ⟨c, hc, ha, rfl⟩
      exact ⟨_, (get_run calls id _).mpr ⟨c, hc, ha, rfl⟩, rfl⟩
  · unfold getState
    rw [Option.map_eq_none_iff, ← has_run]
    exact not_not.symm

/-- A call is refused exactly if it adds a rule a second time or sets one that was not added; then it throws (`out_of_range` for
`SetState`) and changes no state. -/
theorem row_calls (calls : List Call) (c : Call) :
    ((c.exec (run calls)).2 = .ok () ↔ Accepted calls c) ∧
    (¬ Accepted calls c → (c.exec (run calls)).2 = .error (refusal c) ∧
      ∀ id, getState (run (calls ++ [c])) id = getState (run calls) id) := by
  by_cases h : Ok (run calls) c
  · have hx := (ok_iff calls c).mp h
    exact ⟨⟨fun _ => hx, fun _ => (exec_ok h).1⟩, fun g => absurd hx g⟩
  · have hx := fun g => h ((ok_iff calls c).mpr g)
    refine ⟨⟨fun g => ?_, fun g => absurd g hx⟩, fun _ => ⟨(exec_bad h).2, fun id => ?_⟩⟩
    · rw [(exec_bad h).2] at g; cases g
    · rw [run_snoc, (exec_bad h).1]

/-- Two adds, two refused calls and a set. -/
def rowHistory : List Call :=
  [.set "x" "Go", .add "x" "Stop", .add "y" "Go", .add "x" "Go", .set "x" "StopThenGo", .set "z" "Go", .add "y" "Stop"]

example : getState (run rowHistory) "x" = some ⟨"StopThenGo", none⟩ ∧ getState (run rowHistory) "y" = some ⟨"Go", none⟩ ∧
    getState (run rowHistory) "z" = none := by decide +kernel
example : ¬ Accepted rowHistory (.add "x" "Go") ∧ Accepted rowHistory (.set "x" "Go") :=
  ⟨fun h => h ⟨"Stop", by decide⟩, "Stop", by decide⟩

/-- The manual provider of discrete rules after a history of `SetState` calls. -/
def manualProvider (calls : List (Rulebook.Book × StateProvider.Call DiscreteValue)) : Provider :=
  some (StateProvider.getState (StateProvider.run StateProvider.discreteKind calls))

private theorem group_iff (m : Map String (List String)) (k : String) :
    (∀ g, (do throwUnless (m.has k); m.at! k : Except Err (List String)) = .ok g ↔ m.get? k = some g) ∧
    (∀ e, (do throwUnless (m.has k); m.at! k : Except Err (List String)) = .error e → e = .throws) := by
  cases h : m.has k with
  | false =>
    have hn := Map.has_false.mp h
    constructor
    · intro g
      rw [hn]
      constructor <;> intro h' <;> cases h'
    · intro e h'
      cases h'; rfl
  | true =>
    obtain ⟨v, hv⟩ := Map.has_iff.mp h
    have ha := Map.at!_ok.mpr hv
    constructor
    · intro g
      exact Map.at!_ok
    · intro e h'
      have h'' : m.at! k = .error e := h'
      rw [ha] at h''; cases h''

private theorem current_iff (calls : List (Rulebook.Book × StateProvider.Call DiscreteValue)) (rule : DiscreteValueRule) :
    (∀ v, currentStateValue rule (manualProvider calls) = .ok v ↔
      rule.typeId = "Right-Of-Way Rule Type" ∧ ∃ b c, StateProvider.Spec.IsLatest StateProvider.discreteKind calls b c ∧
        c.id = rule.id ∧ c.state = v) ∧
    (∀ e, currentStateValue rule (manualProvider calls) = .error e → e = .throws) := by
  have hl := stateProvider_latest StateProvider.discreteKind calls rule.id
  by_cases ht : rule.typeId = "Right-Of-Way Rule Type"
  · have hd : decide (rule.typeId = Loader.rowTypeId) = true := decide_eq_true ht
    cases hg : StateProvider.getState (StateProvider.run StateProvider.discreteKind calls) rule.id with
    | none =>
      have hc : currentStateValue rule (manualProvider calls) = .error .throws := by
        simp only [currentStateValue, manualProvider, hd, throwUnless, if_true, hg]; rfl
      rw [hc]
      refine ⟨fun v => ⟨fun h => (by cases h), ?_⟩, fun e h => by cases h; rfl⟩
      rintro ⟨_, b, c, h1, h2, _⟩
      have := (hl.1 _).mpr ⟨b, c, h1, h2, rfl⟩
      rw [hg] at this; cases this
    | some r =>
      have hc : currentStateValue rule (manualProvider calls) = .ok r.state := by
        simp only [currentStateValue, manualProvider, hd, throwUnless, if_true, hg]; rfl
      rw [hc]
      refine ⟨fun v => ⟨?_, ?_⟩, fun e h => (by cases h)⟩
      · rintro ⟨⟩
        obtain ⟨b, c, h1, h2, h3⟩ := (hl.1 r).mp hg
        exact ⟨ht, b, c, h1, h2, by rw [h3]; rfl⟩
      · rintro ⟨_, b, c, h1, h2, rfl⟩
        have h3 := (hl.1 _).mpr ⟨b, c, h1, h2, rfl⟩
        rw [hg] at h3
        injection h3 with h3
        rw [h3]; rfl
  · have hd : decide (rule.typeId = Loader.rowTypeId) = false := decide_eq_false ht
    have hc : currentStateValue rule (manualProvider calls) = .error .throws := by
      simp only [currentStateValue, manualProvider, hd, throwUnless]; rfl
    rw [hc]
    exact ⟨fun v => ⟨fun h => (by cases h), fun h => absurd h.1 ht⟩, fun e h => by cases h; rfl⟩

/-- `GetCurrentYieldGroup` and `GetCurrentBulbGroup` return a group exactly if the rule is a right of way rule whose latest
accepted state names it; otherwise they throw. -/
theorem current_groups (calls : List (Rulebook.Book × StateProvider.Call DiscreteValue)) (rule : DiscreteValueRule) :
    (∀ g, currentYieldGroup rule (manualProvider calls) = .ok g ↔
      rule.typeId = "Right-Of-Way Rule Type" ∧ ∃ b c, StateProvider.Spec.IsLatest StateProvider.discreteKind calls b c ∧
        c.id = rule.id ∧ c.state.relatedRules.get? "Yield Group" = some g) ∧
    (∀ g, currentBulbGroup rule (manualProvider calls) = .ok g ↔
      rule.typeId = "Right-Of-Way Rule Type" ∧ ∃ b c, StateProvider.Spec.IsLatest StateProvider.discreteKind calls b c ∧
        c.id = rule.id ∧ c.state.relatedUniqueIds.get? "Bulb Group" = some g) ∧
    (∀ e, currentYieldGroup rule (manualProvider calls) = .error e → e = .throws) ∧
    (∀ e, currentBulbGroup rule (manualProvider calls) = .error e → e = .throws) := by
  have key : ∀ (f : DiscreteValue → Except Err (List String)) (get : DiscreteValue → Option (List String))
      (_ : ∀ v, (∀ g, f v = .ok g ↔ get v = some g) ∧ ∀ e, f v = .error e → e = .throws),
      (∀ g, (currentStateValue rule (manualProvider calls) >>= f) = .ok g ↔
        rule.typeId = "Right-Of-Way Rule Type" ∧ ∃ b c, StateProvider.Spec.IsLatest StateProvider.discreteKind calls b c ∧
          c.id = rule.id ∧ get c.state = some g) ∧
      (∀ e, (currentStateValue rule (manualProvider calls) >>= f) = .error e → e = .throws) := by
    intro f get hf
    have hcur := current_iff calls rule
    cases hv : currentStateValue rule (manualProvider calls) with
    | error e =>
      have he := hcur.2 e hv
      subst he
      refine ⟨fun g => ⟨fun h => (by cases h), ?_⟩, fun e h => by cases h; rfl⟩
      rintro ⟨h1, b, c, h2, h3, _⟩
      have := (hcur.1 c.state).mpr ⟨h1, b, c, h2, h3, rfl⟩
      rw [hv] at this; cases this
    | ok v =>
      refine ⟨fun g => ((hf v).1 g).trans ⟨fun h => ?_, ?_⟩, fun e h => (hf v).2 e h⟩
      · obtain ⟨h1, b, c, h2, h3, rfl⟩ := (hcur.1 v).mp hv
        exact ⟨h1, b, c, h2, h3, h⟩
      · rintro ⟨h1, b, c, h2, h3, h4⟩
        have := (hcur.1 c.state).mpr ⟨h1, b, c, h2, h3, rfl⟩
        rw [hv] at this
        injection this with this
        rw [this, h4]
  have hy := key yieldGroup (fun v => v.relatedRules.get? "Yield Group") fun v => group_iff _ _
  have hb := key bulbGroup (fun v => v.relatedUniqueIds.get? "Bulb Group") fun v => group_iff _ _
  exact ⟨hy.1, hb.1, hy.2, hb.2⟩

/-- A right of way rule with two states that name groups. -/
def groupRule : DiscreteValueRule :=
  ⟨"d", "Right-Of-Way Rule Type", [⟨"1", 30, 40⟩],
    [⟨⟨0, .ofList [("Yield Group", ["e", "f"])], .ofList [("Bulb Group", ["bulb"])]⟩, "Go"⟩, ⟨⟨0, .empty, .empty⟩, "Stop"⟩]⟩
/-- A rulebook with this rule. -/
def groupBook : Rulebook.Book := Rulebook.run [.add (.discreteValue groupRule)]
/-- `SetState` calls on it, the last one refused. -/
def groupCalls : List (Rulebook.Book × StateProvider.Call DiscreteValue) :=
  groupRule.states.reverse.map (fun v => (groupBook, ⟨"d", v, none, none⟩)) ++ [(groupBook, ⟨"d", goState, none, some 3⟩)]

example : currentYieldGroup groupRule (manualProvider groupCalls) = .ok ["e", "f"] ∧
    currentBulbGroup groupRule (manualProvider groupCalls) = .ok ["bulb"] ∧
    currentBulbGroup groupRule (manualProvider (groupCalls.take 1)) = .error .throws ∧
    currentYieldGroup { groupRule with id := "x" } (manualProvider groupCalls) = .error .throws ∧
    currentYieldGroup { groupRule with typeId := "Right-Of-Way" } (manualProvider groupCalls) = .error .throws := by decide +kernel

/-- A null provider is refused. -/
theorem current_groups_null (rule : DiscreteValueRule) :
    currentYieldGroup rule none = .error .throws ∧ currentBulbGroup rule none = .error .throws := ⟨rfl, rfl⟩

end Maliput.Props
