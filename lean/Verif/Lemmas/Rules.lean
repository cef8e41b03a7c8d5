import Verif.Spec.Rules
import Verif.Lemmas.Map
import Verif.Lemmas.Monad
import Mathlib.Data.List.Perm.Subperm
import Mathlib.Tactic.Common

set_option autoImplicit false

/-! Comparison and validation of rule states. -/
namespace Maliput.Rules

open Maliput.Rules.Spec

theorem forM_ok {α : Type} {f : α → Except Err Unit} {xs : List α} {u : Unit} :
    xs.forM f = .ok u ↔ ∀ x ∈ xs, f x = .ok () := by
  induction xs with
  | nil => simp [pure, Except.pure]
  | cons x xs ih =>
    have : (x :: xs).forM f = (do f x; xs.forM f) := rfl
    rw [this]
    simp only [bind_ok, List.mem_cons, forall_eq_or_imp]
    constructor
    · rintro ⟨_, h1, h2⟩; exact ⟨h1, ih.1 h2⟩
    · rintro ⟨h1, h2⟩; exact ⟨(), h1, ih.2 h2⟩

theorem compare_iff (a b : Map String (List String)) : compareMapAttributes a b = true ↔ Within a b := by
  unfold compareMapAttributes Within ids
  have hall : (a.entries.all fun kv =>
      match b.get? kv.1 with
      | none => false
      | some ids => kv.2.all fun v => ids.any fun w => decide (w = v)) = true ↔
      ∀ g l, a.get? g = some l → ∃ l', b.get? g = some l' ∧ ∀ x ∈ l, x ∈ l' := by
    rw [List.all_eq_true]
    simp only [Map.get?_eq_some, Prod.forall]
    refine forall_congr' fun g => forall_congr' fun l => imp_congr_right fun _ => ?_
    generalize ho : b.get? g = o
    rcases o with _ | l'
    · simp only [Bool.false_eq_true, false_iff, not_exists, not_and]
      intro l' hl'
      rw [← Map.get?_eq_some, ho] at hl'
      cases hl'
    · rw [Map.get?_eq_some] at ho
      simp only [List.all_eq_true, List.any_eq_true, decide_eq_true_eq, exists_eq_right]
      constructor
      · intro h; exact ⟨l', ho, h⟩
      · rintro ⟨l'', h1, h2⟩
        have := (Map.get?_eq_some.2 ho).symm.trans (Map.get?_eq_some.2 h1)
        rw [Option.some.injEq] at this
        subst this
        exact h2
  constructor
  · intro h
    split at h
    · cases h
    · next hs =>
      rw [not_not] at hs
      replace h := hall.1 h
      have hsub : a.keys ⊆ b.keys := by
        intro g hg
        obtain ⟨l, hl⟩ := Map.mem_keys.1 hg
        obtain ⟨l', hl', -⟩ := h g l hl
        exact Map.mem_keys.2 ⟨l', hl'⟩
      have hperm : a.keys.Perm b.keys := by
        apply (List.subperm_of_subset a.nodup hsub).perm_of_length_le
        simp only [Map.keys, List.length_map]
        exact le_of_eq hs.symm
      intro g
      refine ⟨by rw [← Map.mem_keys_has, ← Map.mem_keys_has]; exact hperm.mem_iff, fun x hx => ?_⟩
      generalize ho : a.get? g = o at hx
      rcases o with _ | l
      · simp at hx
      · obtain ⟨l', hl', hin⟩ := h g l ho
        rw [hl']; exact hin x hx
  · intro h
    have hperm : a.keys.Perm b.keys := by
      refine (List.perm_ext_iff_of_nodup a.nodup b.nodup).2 ?_
      intro g
      change g ∈ a.keys ↔ g ∈ b.keys
      have := (h g).1
      rw [← Map.mem_keys_has, ← Map.mem_keys_has] at this
      exact this
    have hs : a.size = b.size := by
      have := hperm.length_eq
      simpa [Map.keys, Map.size] using this
    rw [if_neg (by simp [hs])]
    refine hall.2 ?_
    intro g l hl
    obtain ⟨h1, h2⟩ := h g
    obtain ⟨l', hl'⟩ := Map.has_iff.1 (h1.1 (Map.has_iff.2 ⟨l, hl⟩))
    refine ⟨l', hl', ?_⟩
    rw [hl, hl'] at h2
    exact h2

theorem state_eq_iff' (a b : State) : a.eq b = true ↔
    a.severity = b.severity ∧ Within a.relatedRules b.relatedRules ∧ Within a.relatedUniqueIds b.relatedUniqueIds := by
  unfold State.eq
  rw [Bool.and_eq_true, Bool.and_eq_true, compare_iff, compare_iff, decide_eq_true_eq]
  tauto

theorem Within.refl (a : Map String (List String)) : Within a a := fun _ => ⟨Iff.rfl, fun _ h => h⟩

theorem Within.trans {a b c : Map String (List String)} (h : Within a b) (h' : Within b c) : Within a c :=
  fun g => ⟨(h g).1.trans (h' g).1, fun x hx => (h' g).2 x ((h g).2 x hx)⟩

theorem Within.symm {a b : Map String (List String)} (h : Within a b) (hs : SameCounts a b) : Within b a := by
  intro g
  refine ⟨(h g).1.symm, fun x hx => ?_⟩
  obtain ⟨h1, h2, h3⟩ := hs g
  have := (List.subperm_of_subset h1 (h g).2).perm_of_length_le (le_of_eq h3.symm)
  exact this.mem_iff.2 hx

theorem validateRelated_ok {m : Map String (List String)} {u : Unit} :
    validateRelated m = .ok u ↔ ValidRelated m := by
  unfold validateRelated ValidRelated ids
  rw [forM_ok]
  simp only [bind_ok, throwUnless_ok, decide_eq_true_eq, forM_ok]
  constructor
  · intro h g hg
    obtain ⟨l, hl⟩ := Map.has_iff.1 hg
    obtain ⟨_, h1, h2⟩ := h (g, l) (Map.get?_eq_some.1 hl)
    refine ⟨h1, ?_⟩
    rw [hl, Option.getD_some, List.nodup_iff_count_eq_one]
    intro x hx
    rw [List.count, ← h2 x hx]
    congr 1
  · rintro h ⟨g, l⟩ hm
    have hl := Map.get?_eq_some.2 hm
    obtain ⟨h1, h2⟩ := h g (Map.has_iff.2 ⟨l, hl⟩)
    refine ⟨(), h1, fun x hx => ?_⟩
    rw [hl, Option.getD_some, List.nodup_iff_count_eq_one] at h2
    rw [← h2 x hx, List.count]
    congr 1

end Maliput.Rules
