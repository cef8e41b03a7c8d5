import Verif.Spec.Xml

set_option autoImplicit false

/-! Lemmas about the reader of XML. -/
namespace Maliput.Xml

theorem steps_append (r : Reader) (a b : List Char) : steps r (a ++ b) = (steps r a).bind fun r => steps r b := by
  induction a generalizing r with
  | nil => rfl
  | cons c a ih =>
    simp only [List.cons_append, steps]
    cases step r c with
    | none => rfl
    | some r' => simp [ih]

/-- The value of an attribute is read as it is if it is plain. -/
theorem steps_value {s : List Char} (h : Plain s) (n k v : List Char) (as : List (List Char × List Char)) (stack : List Frame)
    (done : List Element) :
    steps ⟨.value n as k v, stack, done⟩ s = some ⟨.value n as k (v ++ s), stack, done⟩ := by
  induction s generalizing v with
  | nil => simp [steps]
  | cons c s ih =>
    obtain ⟨h1, h2, h3, h4⟩ := h c (by simp)
    have hc : (if isBlank c = true then ' ' else c) = c := by
      by_cases hb : isBlank c = true
      · rw [if_pos hb, h4 hb]
      · rw [if_neg hb]
    have hs : step ⟨.value n as k v, stack, done⟩ c = some ⟨.value n as k (v ++ [c]), stack, done⟩ := by
      simp [step, h1, h2, h3, hc]
    rw [steps, hs, Option.bind_some, ih (fun d hd => h d (by simp [hd]))]
    simp

end Maliput.Xml
