import Verif.Lemmas.FirstWithId
import Verif.Lemmas.Monad
import Verif.Props.Regions
import Verif.Spec.Intersection

set_option autoImplicit false

namespace Maliput.Intersections

open Maliput.Spec Maliput.Intersections.Spec

theorem findFirst_ok {incl : Intersection → Except Err Bool} {P : Intersection → Prop} {l : List Intersection}
    (h : ∀ i ∈ l, ∀ b, incl i = .ok b → (b = true ↔ P i)) {r : Option Intersection}
    (hr : findFirst incl l = .ok r) : Finds l P r := by
  induction l with
  | nil =>
    simp only [findFirst, Except.ok.injEq] at hr
    subst hr
    exact ⟨by simp, by simp⟩
  | cons x xs ih =>
    simp only [findFirst, bind_ok] at hr
    obtain ⟨b, hb, hr⟩ := hr
    have hx := h x (by simp) b hb
    by_cases e : b = true
    · rw [if_pos e, pure_ok] at hr
      subst hr
      refine ⟨?_, by simp⟩
      intro i hi
      obtain rfl := Option.some.inj hi
      exact ⟨by simp, hx.1 e⟩
    · rw [if_neg e] at hr
      obtain ⟨h1, h2⟩ := ih (fun i hi => h i (List.mem_cons_of_mem _ hi)) hr
      refine ⟨fun i hi => ⟨List.mem_cons_of_mem _ (h1 i hi).1, (h1 i hi).2⟩, ?_⟩
      intro hn i hi
      rcases List.mem_cons.1 hi with rfl | hi
      · exact fun hp => e (hx.2 hp)
      · exact h2 hn i hi

theorem findFirst_error {incl : Intersection → Except Err Bool} {l : List Intersection} {e : Err}
    (hr : findFirst incl l = .error e) : ∃ i ∈ l, incl i = .error e := by
  induction l with
  | nil => simp [findFirst] at hr
  | cons x xs ih =>
    simp only [findFirst] at hr
    cases hx : incl x with
    | error e' =>
      rw [hx] at hr
      simp only [bind, Except.bind, Except.error.injEq] at hr
      subst hr
      exact ⟨x, by simp, hx⟩
    | ok b =>
      rw [hx] at hr
      simp only [bind, Except.bind] at hr
      by_cases e : b = true
      · rw [if_pos e] at hr; cases hr
      · rw [if_neg e] at hr
        obtain ⟨i, hi, h⟩ := ih hr
        exact ⟨i, List.mem_cons_of_mem _ hi, h⟩

theorem includesLight_spec (i : Intersection) (phaseOf : PhaseOf) (id : String) :
    (∀ b, i.includesLight phaseOf id = .ok b → (b = true ↔ RefersToLight phaseOf id i)) ∧
    (∀ e, i.includesLight phaseOf id = .error e → e = .outOfRange ∧ ¬ PhaseKnown phaseOf i) := by
  unfold Intersection.includesLight Intersection.bulbStates RefersToLight CurrentPhase PhaseKnown
  cases hp : phaseOf i with
  | none => simp [bind, Except.bind, pure, Except.pure]
  | some res =>
    simp only
    cases hat : i.ring.phases.at! res.state with
    | error e =>
      obtain ⟨rfl, hn⟩ := Map.at!_error.1 hat
      simp only [bind, Except.bind, reduceCtorEq, false_implies, implies_true, Except.error.injEq,
        Option.some.injEq, forall_eq', true_and]
      rintro ⟨ph, h⟩
      rw [← Map.get?_eq_some, hn] at h; cases h
    | ok ph =>
      have hg := Map.at!_ok.1 hat
      simp only [bind, Except.bind, pure, Except.pure, Option.some.injEq, exists_eq_left', ← Map.get?_eq_some,
        hg]
      cases hb : ph.bulbStates with
      | none =>
        simp [hb]
      | some m =>
        simp only [Except.ok.injEq, forall_eq', reduceCtorEq, false_implies, implies_true, and_true,
          List.any_eq_true, decide_eq_true_eq]
        constructor
        · rintro ⟨k, hk, hl⟩
          obtain ⟨v, hv⟩ := Map.mem_keys.1 hk
          exact ⟨ph, m, k, v, rfl, hb, hv, hl⟩
        · rintro ⟨p', m', k, v, rfl, hm, hv, hl⟩
          rw [hb] at hm; obtain rfl := Option.some.inj hm
          exact ⟨k, Map.mem_keys.2 ⟨v, hv⟩, hl⟩

theorem includesDiscrete_spec (i : Intersection) (phaseOf : PhaseOf) (id : String) :
    (∀ b, i.includesDiscrete phaseOf id = .ok b → (b = true ↔ RefersToDiscrete phaseOf id i)) ∧
    (∀ e, i.includesDiscrete phaseOf id = .error e → e = .outOfRange ∧ ¬ PhaseKnown phaseOf i) := by
  unfold Intersection.includesDiscrete Intersection.discreteStates RefersToDiscrete CurrentPhase PhaseKnown
  cases hp : phaseOf i with
  | none => simp [bind, Except.bind, pure, Except.pure]
  | some res =>
    simp only
    cases hat : i.ring.phases.at! res.state with
    | error e =>
      obtain ⟨rfl, hn⟩ := Map.at!_error.1 hat
      simp only [bind, Except.bind, reduceCtorEq, false_implies, implies_true, Except.error.injEq,
        Option.some.injEq, forall_eq', true_and]
      rintro ⟨ph, h⟩
      rw [← Map.get?_eq_some, hn] at h; cases h
    | ok ph =>
      have hg := Map.at!_ok.1 hat
      simp only [bind, Except.bind, pure, Except.pure, Option.some.injEq, exists_eq_left', ← Map.get?_eq_some,
        hg, Except.ok.injEq, forall_eq', reduceCtorEq, false_implies, implies_true, and_true, Map.has_iff]
      constructor
      · rintro ⟨v, hv⟩; exact ⟨ph, v, rfl, hv⟩
      · rintro ⟨_, v, rfl, hv⟩; exact ⟨v, hv⟩

theorem includesRow_spec (i : Intersection) (phaseOf : PhaseOf) (id : String) :
    (∀ b, i.includesRow phaseOf id = .ok b → (b = true ↔ RefersToRow phaseOf id i)) ∧
    (∀ e, i.includesRow phaseOf id = .error e → e = .outOfRange ∧ ¬ PhaseKnown phaseOf i) := by
  unfold Intersection.includesRow Intersection.ruleStates RefersToRow CurrentPhase PhaseKnown
  cases hp : phaseOf i with
  | none => simp [bind, Except.bind, pure, Except.pure]
  | some res =>
    simp only
    cases hat : i.ring.phases.at! res.state with
    | error e =>
      obtain ⟨rfl, hn⟩ := Map.at!_error.1 hat
      simp only [bind, Except.bind, reduceCtorEq, false_implies, implies_true, Except.error.injEq,
        Option.some.injEq, forall_eq', true_and]
      rintro ⟨ph, h⟩
      rw [← Map.get?_eq_some, hn] at h; cases h
    | ok ph =>
      have hg := Map.at!_ok.1 hat
      simp only [bind, Except.bind, pure, Except.pure, Option.some.injEq, exists_eq_left', ← Map.get?_eq_some,
        hg, Except.ok.injEq, forall_eq', reduceCtorEq, false_implies, implies_true, and_true, Map.has_iff]
      constructor
      · rintro ⟨v, hv⟩; exact ⟨ph, v, rfl, hv⟩
      · rintro ⟨_, v, rfl, hv⟩; exact ⟨v, hv⟩

theorem rangeMeets_spec (r : LaneSRange) (hr : ValidRange r.sRange) (tol : ℚ) (ht : 0 ≤ tol)
    (l : List LaneSRange) (hl : ∀ x ∈ l, ValidRange x.sRange) :
    ∃ b, rangeMeets r tol l = .ok b ∧ (b = true ↔ ∃ x ∈ l, CloseLaneRanges r x tol) := by
  induction l with
  | nil => exact ⟨false, rfl, by simp⟩
  | cons x xs ih =>
    obtain ⟨b, hb, hb'⟩ := Props.laneSRange_intersects_iff r x hr (hl x (by simp)) tol ht
    obtain ⟨c, hc, hc'⟩ := ih (fun y hy => hl y (List.mem_cons_of_mem _ hy))
    simp only [rangeMeets, hb, bind, Except.bind, pure, Except.pure]
    by_cases e : b = true
    · exact ⟨true, by rw [if_pos e], by simp [hb'.1 e]⟩
    · refine ⟨c, by rw [if_neg e, hc], ?_⟩
      rw [hc']
      constructor
      · rintro ⟨y, hy, h⟩; exact ⟨y, List.mem_cons_of_mem _ hy, h⟩
      · rintro ⟨y, hy, h⟩
        rcases List.mem_cons.1 hy with rfl | hy
        · exact absurd (hb'.2 h) e
        · exact ⟨y, hy, h⟩

theorem regionMeets_spec (region : List LaneSRange) (hl : ∀ x ∈ region, ValidRange x.sRange) (tol : ℚ) (ht : 0 ≤ tol)
    (l : List LaneSRange) (hr : ∀ x ∈ l, ValidRange x.sRange) :
    ∃ b, regionMeets region tol l = .ok b ∧ (b = true ↔ ∃ a ∈ l, ∃ x ∈ region, CloseLaneRanges a x tol) := by
  induction l with
  | nil => exact ⟨false, rfl, by simp⟩
  | cons r rs ih =>
    obtain ⟨b, hb, hb'⟩ := rangeMeets_spec r (hr r (by simp)) tol ht region hl
    obtain ⟨c, hc, hc'⟩ := ih (fun y hy => hr y (List.mem_cons_of_mem _ hy))
    simp only [regionMeets, hb, bind, Except.bind, pure, Except.pure]
    by_cases e : b = true
    · exact ⟨true, by rw [if_pos e], by simp [hb'.1 e]⟩
    · refine ⟨c, by rw [if_neg e, hc], ?_⟩
      rw [hc']
      constructor
      · rintro ⟨y, hy, h⟩; exact ⟨y, List.mem_cons_of_mem _ hy, h⟩
      · rintro ⟨y, hy, h⟩
        rcases List.mem_cons.1 hy with rfl | hy
        · exact absurd (hb'.2 h) e
        · exact ⟨y, hy, h⟩

theorem findMeeting_spec (region : List LaneSRange) (hl : ∀ x ∈ region, ValidRange x.sRange) (tol : ℚ) (ht : 0 ≤ tol)
    (l : List Intersection) (hr : ∀ i ∈ l, ∀ x ∈ i.region, ValidRange x.sRange) :
    ∃ r, findMeeting region tol l = .ok r ∧ r.Sublist l ∧ ∀ i, i ∈ r ↔ i ∈ l ∧ Meets region tol i := by
  induction l with
  | nil => exact ⟨[], rfl, List.Sublist.refl _, by simp⟩
  | cons j js ih =>
    obtain ⟨b, hb, hb'⟩ := regionMeets_spec region hl tol ht j.region (hr j (by simp))
    obtain ⟨c, hc, hs, hc'⟩ := ih (fun y hy => hr y (List.mem_cons_of_mem _ hy))
    change b = true ↔ Meets region tol j at hb'
    simp only [findMeeting, hb, hc, bind, Except.bind, pure, Except.pure]
    by_cases e : b = true
    · refine ⟨j :: c, by rw [if_pos e], hs.cons_cons _, ?_⟩
      intro i
      rw [List.mem_cons, List.mem_cons, hc']
      constructor
      · rintro (rfl | h)
        · exact ⟨Or.inl rfl, hb'.1 e⟩
        · exact ⟨Or.inr h.1, h.2⟩
      · rintro ⟨rfl | h, h2⟩
        · exact Or.inl rfl
        · exact Or.inr ⟨h, h2⟩
    · refine ⟨c, by rw [if_neg e], hs.cons _, ?_⟩
      intro i
      rw [List.mem_cons, hc']
      constructor
      · rintro ⟨h1, h2⟩; exact ⟨Or.inr h1, h2⟩
      · rintro ⟨rfl | h, h2⟩
        · exact absurd (hb'.2 h2) e
        · exact ⟨h, h2⟩

theorem run_eq (ops : List (Option Intersection)) :
    Book.run ops = ops.foldl (addTo Intersection.id) .empty := by
  unfold Book.run
  congr 1
  funext b o
  cases o <;> rfl

end Maliput.Intersections
