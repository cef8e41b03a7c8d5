import Mathlib.Data.List.Induction
import Verif.Lemmas.Map
import Verif.Spec.FirstWithId

set_option autoImplicit false

/-! Books to which objects are only ever added. -/
namespace Maliput

open Maliput.Spec

variable {α : Type} (idOf : α → String)

theorem firstWithId_snoc (ops : List (Option α)) (o : Option α) (t : α) :
    FirstWithId idOf (ops ++ [o]) t ↔
      FirstWithId idOf ops t ∨ (o = some t ∧ ∀ t', some t' ∈ ops → idOf t' ≠ idOf t) := by
  constructor
  · rintro ⟨pre, post, h, h'⟩
    rcases List.eq_nil_or_concat post with rfl | ⟨p', x, rfl⟩
    · right
      obtain ⟨rfl, h2⟩ := List.append_inj' h rfl
      exact ⟨by simpa using h2, h'⟩
    · left
      refine ⟨pre, p', ?_, h'⟩
      have h2 : ops ++ [o] = (pre ++ some t :: p') ++ [x] := by rw [h]; simp
      exact (List.append_inj' h2 rfl).1
  · rintro (⟨pre, post, rfl, h'⟩ | ⟨rfl, h⟩)
    · exact ⟨pre, post ++ [o], by simp, h'⟩
    · exact ⟨ops, [], rfl, h⟩

/-- Adding an object to a map under its id, unless the id is in use. -/
def addTo (m : Map String α) : Option α → Map String α
  | none => m
  | some a => (m.emplace (idOf a) a).1

theorem addTo_fold (ops : List (Option α)) :
    (∀ id a, (ops.foldl (addTo idOf) .empty).get? id = some a ↔ FirstWithId idOf ops a ∧ idOf a = id) ∧
    (∀ id, (ops.foldl (addTo idOf) .empty).get? id = none ↔ ∀ a, some a ∈ ops → idOf a ≠ id) := by
  induction ops using List.reverseRecOn with
  | nil => simp [FirstWithId]
  | append_singleton ops o ih =>
    obtain ⟨ih1, ih2⟩ := ih
    rw [List.foldl_append, List.foldl_cons, List.foldl_nil]
    generalize ops.foldl (addTo idOf) .empty = m at ih1 ih2
    cases o with
    | none =>
      simp only [addTo]
      constructor
      · intro id a; rw [ih1, firstWithId_snoc]; simp
      · intro id; rw [ih2]; simp
    | some x =>
      simp only [addTo, Map.get?_emplace]
      constructor
      · intro id a
        rw [firstWithId_snoc]
        by_cases h : id = idOf x ∧ m.get? (idOf x) = none
        · rw [if_pos h]
          obtain ⟨rfl, h⟩ := h
          constructor
          · intro e; obtain rfl := Option.some.inj e
            exact ⟨Or.inr ⟨rfl, (ih2 _).1 h⟩, rfl⟩
          · rintro ⟨h1 | ⟨h1, -⟩, h2⟩
            · have := (ih1 (idOf x) a).2 ⟨h1, h2⟩
              rw [h] at this; cases this
            · exact h1
        · rw [if_neg h, ih1]
          constructor
          · rintro ⟨h1, h2⟩; exact ⟨Or.inl h1, h2⟩
          · rintro ⟨h1 | ⟨h1, h3⟩, h2⟩
            · exact ⟨h1, h2⟩
            · obtain rfl := Option.some.inj h1
              exact absurd ⟨h2.symm, (ih2 _).2 h3⟩ h
      · intro id
        by_cases h : id = idOf x ∧ m.get? (idOf x) = none
        · rw [if_pos h]
          simp only [reduceCtorEq, false_iff, not_forall, not_not]
          exact ⟨x, by simp, h.1.symm⟩
        · rw [if_neg h, ih2]
          constructor
          · intro h2 a ha
            rcases List.mem_append.1 ha with ha | ha
            · exact h2 a ha
            · obtain rfl : a = x := by simpa using ha
              intro e
              exact h ⟨e.symm, (ih2 _).2 (by rw [e]; exact h2)⟩
          · intro h2 a ha; exact h2 a (List.mem_append_left _ ha)

end Maliput
