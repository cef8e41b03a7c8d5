import Verif.Lemmas.SystemConstraint

set_option autoImplicit false
set_option linter.unusedSectionVars false

/-! Helper lemmas about the constraints that bounds on the elements of vectors give. -/
namespace Maliput.SystemConstraint

open Maliput Spec

variable {R Ctx : Type} [Field R] [LinearOrder R] [IsStrictOrderedRing R]

theorem mapM_ok {α β : Type} (f : α → Except Err β) (g : α → β) (l : List α) (h : ∀ x ∈ l, f x = .ok (g x)) :
    l.mapM f = .ok (l.map g) := by
  induction l with
  | nil => rfl
  | cons x l ih =>
    rw [List.mapM_cons, h x (by simp), ih fun y hy => h y (by simp [hy])]
    rfl

/-- The indices of the elements that have a finite bound. -/
def bounded (lower upper : List (Bound R)) : List Nat :=
  (List.range lower.length).filter fun i => !((lower[i]?.map Bound.isInf).getD true) || !((upper[i]?.map Bound.isInf).getD true)

theorem mem_bounded {lower upper : List (Bound R)} (h : lower.length = upper.length) (i : Nat) :
    i ∈ bounded lower upper ↔ ∃ l u, lower[i]? = some l ∧ upper[i]? = some u ∧ (l.isInf = false ∨ u.isInf = false) := by
  simp only [bounded, List.mem_filter, List.mem_range]
  constructor
  · rintro ⟨hi, hb⟩
    have hi' : i < upper.length := h ▸ hi
    refine ⟨lower[i], upper[i], List.getElem?_eq_getElem hi, List.getElem?_eq_getElem hi', ?_⟩
    simpa [List.getElem?_eq_getElem hi, List.getElem?_eq_getElem hi'] using hb
  · rintro ⟨l, u, hl, hu, hb⟩
    refine ⟨(List.getElem?_eq_some_iff.mp hl).1, ?_⟩
    simpa [hl, hu] using hb

theorem pick_ok {α : Type} (d : α) (l : List α) (indices : List Nat) (h : ∀ i ∈ indices, i < l.length) :
    pick l indices = .ok (indices.map fun i => (l[i]?).getD d) := by
  unfold pick
  apply mapM_ok
  intro i hi
  rw [List.getElem?_eq_getElem (h i hi)]
  rfl

/-- The bounds of the elements that are bounded. -/
def only (l : List (Bound R)) (indices : List Nat) : List (Bound R) := indices.map fun i => (l[i]?).getD .negInf

theorem only_getElem? (l : List (Bound R)) (indices : List Nat) (h : ∀ i ∈ indices, i < l.length) (j : Nat) (b : Bound R) :
    (only l indices)[j]? = some b ↔ ∃ i, indices[j]? = some i ∧ l[i]? = some b := by
  simp only [only, List.getElem?_map, Option.map_eq_some_iff]
  constructor
  · rintro ⟨i, hi, hb⟩
    have := List.getElem?_eq_getElem (h i (List.mem_of_getElem? hi))
    rw [this] at hb
    exact ⟨i, hi, by rw [this]; simpa using hb⟩
  · rintro ⟨i, hi, hb⟩
    exact ⟨i, hi, by rw [hb]; rfl⟩

/-- The declaration in terms of the bounded elements. -/
theorem maybeDeclareVector_eq (s : System R Ctx) (kind : String) (lower upper : List (Bound R))
    (h : lower.length = upper.length) (vector : Ctx → Except Err (List R)) :
    maybeDeclareVector s kind lower.length lower upper vector =
      if bounded lower upper = [] then (s, .ok none)
      else match bounds (only lower (bounded lower upper)) (only upper (bounded lower upper)) with
        | .error e => (s, .error e)
        | .ok b =>
          match declareInequality s (some fun c => do pick (← vector c) (bounded lower upper)) b kind with
          | (s', .error e) => (s', .error e)
          | (s', .ok i) => (s', .ok (some i)) := by
  unfold maybeDeclareVector
  by_cases h0 : lower.length = 0
  · have hl : lower = [] := List.length_eq_zero_iff.mp h0
    have hu : upper = [] := List.length_eq_zero_iff.mp (h ▸ h0)
    subst hl hu
    simp [bounded]
  · rw [if_neg (by tauto)]
    have hm : (List.range lower.length).mapM (mark lower upper) =
        .ok ((List.range lower.length).map fun i =>
          (i, !((lower[i]?.map Bound.isInf).getD true) || !((upper[i]?.map Bound.isInf).getD true))) := by
      apply mapM_ok
      intro i hi
      rw [List.mem_range] at hi
      simp only [mark, List.getElem?_eq_getElem hi, List.getElem?_eq_getElem (h ▸ hi : i < upper.length)]
      rfl
    rw [hm]
    have hb : ((((List.range lower.length).map fun i =>
          (i, !((lower[i]?.map Bound.isInf).getD true) || !((upper[i]?.map Bound.isInf).getD true))).filter (·.2)).map (·.1)) =
        bounded lower upper := by
      rw [List.filter_map, List.map_map]
      exact List.map_id _
    dsimp only
    rw [hb]
    have hlt : ∀ i ∈ bounded lower upper, i < lower.length := by
      intro i hi
      obtain ⟨_, _, hl, _⟩ := (mem_bounded h i).mp hi
      exact (List.getElem?_eq_some_iff.mp hl).1
    rw [pick_ok .negInf lower _ hlt, pick_ok .negInf upper _ (h ▸ hlt)]
    rfl

end Maliput.SystemConstraint
