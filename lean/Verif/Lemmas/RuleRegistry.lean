import Verif.Spec.RuleRegistry
import Verif.Lemmas.Rules
import Mathlib.Data.List.Induction

set_option autoImplicit false

/-! Registrations. -/
namespace Maliput.RuleRegistry

open Maliput.Rules Maliput.Rules.Spec Maliput.RuleRegistry.Spec

/-- "Each element is counted once" means "no two elements are related". -/
theorem countP_one_iff {α : Type} {f : α → α → Bool} (hf : ∀ a, f a a = true) (l : List α) :
    (∀ v ∈ l, l.countP (fun w => f w v) = 1) ↔ l.Pairwise (fun a b => f a b = false ∧ f b a = false) := by
  induction l with
  | nil => simp
  | cons x xs ih =>
    rw [List.pairwise_cons, ← ih]
    simp only [List.mem_cons, forall_eq_or_imp, List.countP_cons, hf, if_true, Nat.add_eq_right,
      List.countP_eq_zero]
    constructor
    · rintro ⟨h1, h2⟩
      have key : ∀ v ∈ xs, f x v = false ∧ xs.countP (fun w => f w v) = 1 := by
        intro v hv
        have := h2 v hv
        have hpos : 0 < xs.countP (fun w => f w v) := List.countP_pos_iff.2 ⟨v, hv, hf v⟩
        split at this
        · omega
        · next h => exact ⟨by simpa using h, by omega⟩
      exact ⟨fun v hv => ⟨(key v hv).1, by simpa using h1 v hv⟩, fun v hv => (key v hv).2⟩
    · rintro ⟨h1, h2⟩
      refine ⟨fun v hv => by simp [(h1 v hv).2], fun v hv => ?_⟩
      rw [h2 v hv, (h1 v hv).1]; rfl

theorem DiscreteValue.eq_refl (v : DiscreteValue) : v.eq v = true := by
  simp only [DiscreteValue.eq, decide_true, Bool.true_and]
  exact (state_eq_iff' _ _).2 ⟨rfl, Within.refl _, Within.refl _⟩

theorem Range.eq_refl (v : Range) : v.eq v = true := by
  simp only [Range.eq, decide_true, Bool.true_and]
  exact (state_eq_iff' _ _).2 ⟨rfl, Within.refl _, Within.refl _⟩

theorem dup_iff {α : Type} {f : α → α → Bool} (hf : ∀ a, f a a = true) (l : List α) :
    l.any (fun v => decide (l.countP (fun w => f w v) ≠ 1)) = false ↔
      l.Pairwise (fun a b => f a b = false ∧ f b a = false) := by
  rw [← countP_one_iff hf, List.any_eq_false]
  simp

theorem getPossibleStates_none {r : Registry} {t : String} :
    getPossibleStates r t = none ↔ r.rangeTypes.get? t = none ∧ r.discreteTypes.get? t = none := by
  unfold getPossibleStates
  split <;> [simp_all; (split <;> simp_all)]

/-- A registration succeeds exactly if it is acceptable and the type id is new; otherwise nothing changes. -/
theorem step_spec (r : Registry) (op : Op) :
    (Acceptable op ∧ getPossibleStates r (typeOf op) = none →
      (step r op).2 = .ok () ∧
      (∀ t, getPossibleStates (step r op).1 t =
        if t = typeOf op then some (t, valuesOf op) else getPossibleStates r t)) ∧
    (¬ (Acceptable op ∧ getPossibleStates r (typeOf op) = none) → step r op = (r, .error .throws)) := by
  rcases op with ⟨t, l⟩ | ⟨t, l⟩
  · simp only [step, registerRange, Acceptable, typeOf, valuesOf]
    rw [← dup_iff Range.eq_refl]
    constructor
    · rintro ⟨⟨h1, h2⟩, h3⟩
      rw [h3, h2]
      obtain ⟨h4, h5⟩ := getPossibleStates_none.1 h3
      have h6 := Map.emplace_new l h4
      simp only [Option.isSome_none, Bool.false_eq_true, if_false, List.isEmpty_iff, h1, h6.1, if_true, true_and]
      intro t'
      unfold getPossibleStates
      simp only [h6.2]
      by_cases ht : t' = t
      · simp [ht]
      · simp [ht]
    · intro h
      by_cases h3 : getPossibleStates r t = none
      · rw [h3]
        by_cases h1 : l = []
        · simp [h1]
        · have h2 : ¬ (l.any fun v => decide (l.countP (fun w => w.eq v) ≠ 1)) = false := by tauto
          rw [Bool.not_eq_false] at h2
          rw [if_neg (by simp), if_neg (by simpa using h1), if_pos h2]
      · have : (getPossibleStates r t).isSome = true := Option.isSome_iff_ne_none.2 h3
        rw [this]; simp
  · simp only [step, registerDiscrete, Acceptable, typeOf, valuesOf]
    rw [← dup_iff DiscreteValue.eq_refl]
    constructor
    · rintro ⟨⟨h1, h2⟩, h3⟩
      rw [h3, h2]
      obtain ⟨h4, h5⟩ := getPossibleStates_none.1 h3
      have h6 := Map.emplace_new l h5
      simp only [Option.isSome_none, Bool.false_eq_true, if_false, List.isEmpty_iff, h1, h6.1, if_true, true_and]
      intro t'
      unfold getPossibleStates
      simp only [h6.2]
      by_cases ht : t' = t
      · simp [ht, h4]
      · simp [ht]
    · intro h
      by_cases h3 : getPossibleStates r t = none
      · rw [h3]
        by_cases h1 : l = []
        · simp [h1]
        · have h2 : ¬ (l.any fun v => decide (l.countP (fun w => w.eq v) ≠ 1)) = false := by tauto
          rw [Bool.not_eq_false] at h2
          rw [if_neg (by simp), if_neg (by simpa using h1), if_pos h2]
      · have : (getPossibleStates r t).isSome = true := Option.isSome_iff_ne_none.2 h3
        rw [this]; simp

theorem run_snoc (ops : List Op) (op : Op) : run (ops ++ [op]) = (step (run ops) op).1 := by simp [run]

theorem isFirst_snoc (ops : List Op) (o op : Op) : IsFirst (ops ++ [op]) o ↔
    IsFirst ops o ∨ (o = op ∧ Acceptable op ∧ ∀ x ∈ ops, typeOf x = typeOf op → ¬ Acceptable x) := by
  constructor
  · rintro ⟨pre, post, h, ha, hp⟩
    rcases List.eq_nil_or_concat post with rfl | ⟨post', last, rfl⟩
    · have := List.append_inj' h rfl
      simp only [List.cons.injEq, and_true] at this
      obtain ⟨rfl, rfl⟩ := this
      exact Or.inr ⟨rfl, ha, hp⟩
    · left
      have h' : ops ++ [op] = (pre ++ o :: post') ++ [last] := by rw [h]; simp
      have := List.append_inj' h' rfl
      exact ⟨pre, post', this.1, ha, hp⟩
  · rintro (⟨pre, post, rfl, ha, hp⟩ | ⟨rfl, ha, hp⟩)
    · exact ⟨pre, post ++ [op], by simp, ha, hp⟩
    · exact ⟨ops, [], rfl, ha, hp⟩

/-- What the registry reports after a history. -/
theorem run_spec (ops : List Op) : (∀ t, getPossibleStates (run ops) t = none ↔
      ∀ o ∈ ops, typeOf o = t → ¬ Acceptable o) ∧
    ∀ t v, getPossibleStates (run ops) t = some v ↔
      ∃ o, IsFirst ops o ∧ typeOf o = t ∧ v = (t, valuesOf o) := by
  induction ops using List.reverseRecOn with
  | nil => 
    constructor
    · intro t; simp [run, Registry.empty, getPossibleStates]
    · intro t v; simp [run, Registry.empty, getPossibleStates, IsFirst]
  | append_singleton ops op ih =>
    obtain ⟨ih1, ih2⟩ := ih
    rw [run_snoc]
    obtain ⟨h1, h2⟩ := step_spec (run ops) op
    by_cases h : Acceptable op ∧ getPossibleStates (run ops) (typeOf op) = none
    · obtain ⟨-, h1⟩ := h1 h
      constructor
      · intro t
        rw [h1]
        split
        next ht =>
          simp only [reduceCtorEq, false_iff, not_forall, not_not]
          exact ⟨op, by simp, ht.symm, h.1⟩
        next ht =>
          rw [ih1]
          simp only [List.mem_append, List.mem_singleton]
          constructor
          · rintro h o (ho | rfl) hot
            · exact h o ho hot
            · exact absurd hot.symm ht
          · intro h o ho; exact h o (Or.inl ho)
      · intro t v
        rw [h1]
        simp only [isFirst_snoc]
        split
        next ht =>
          subst ht
          constructor
          · intro hv; cases hv
            exact ⟨op, Or.inr ⟨rfl, h.1, (ih1 _).1 h.2⟩, rfl, rfl⟩
          · rintro ⟨o, ho | ⟨rfl, -, -⟩, hot, rfl⟩
            · have := (ih2 (typeOf op) _).2 ⟨o, ho, hot, rfl⟩
              rw [h.2] at this; cases this
            · rfl
        next ht =>
          rw [ih2]
          constructor
          · rintro ⟨o, ho, hv⟩; exact ⟨o, Or.inl ho, hv⟩
          · rintro ⟨o, ho | ⟨rfl, -, -⟩, hot, hv⟩
            · exact ⟨o, ho, hot, hv⟩
            · exact absurd hot.symm ht
    · rw [h2 h]
      dsimp only
      have hrej : ¬ (Acceptable op ∧ ∀ x ∈ ops, typeOf x = typeOf op → ¬ Acceptable x) := by
        rw [← ih1]; exact h
      constructor
      · intro t
        rw [ih1]
        simp only [List.mem_append, List.mem_singleton]
        constructor
        · rintro h3 o (ho | rfl) hot
          · exact h3 o ho hot
          · subst hot; exact fun ha => hrej ⟨ha, h3⟩
        · intro h o ho; exact h o (Or.inl ho)
      · intro t v
        rw [ih2]
        simp only [isFirst_snoc]
        constructor
        · rintro ⟨o, ho, hv⟩; exact ⟨o, Or.inl ho, hv⟩
        · rintro ⟨o, ho | ⟨rfl, h4⟩, hv⟩
          · exact ⟨o, ho, hv⟩
          · exact absurd h4 hrej

/-- The two maps never share a key. -/
theorem run_disjoint (ops : List Op) (t : String) :
    (run ops).rangeTypes.get? t = none ∨ (run ops).discreteTypes.get? t = none := by
  induction ops using List.reverseRecOn with
  | nil => left; rfl
  | append_singleton ops op ih =>
    rw [run_snoc]
    rcases op with ⟨t', l⟩ | ⟨t', l⟩
    · simp only [step, registerRange]
      split
      · exact ih
      split
      · exact ih
      split
      · exact ih
      · next h _ _ =>
        simp only [Bool.not_eq_true, Option.isSome_eq_false_iff, Option.isNone_iff_eq_none] at h
        have h := getPossibleStates_none.1 h
        dsimp only
        rw [(Map.emplace_new l h.1).2]
        by_cases ht : t = t'
        · subst ht; right; exact h.2
        · rw [if_neg ht]; exact ih
    · simp only [step, registerDiscrete]
      split
      · exact ih
      split
      · exact ih
      split
      · exact ih
      · next h _ _ =>
        simp only [Bool.not_eq_true, Option.isSome_eq_false_iff, Option.isNone_iff_eq_none] at h
        have h := getPossibleStates_none.1 h
        dsimp only
        rw [(Map.emplace_new l h.2).2]
        by_cases ht : t = t'
        · subst ht; left; exact h.1
        · rw [if_neg ht]; exact ih

end Maliput.RuleRegistry
