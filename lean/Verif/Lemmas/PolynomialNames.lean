import Verif.Lemmas.Monad
import Verif.Model.Polynomial

set_option autoImplicit false

namespace Maliput.Poly

theorem nameChar_index {c : Char} (h : nameChars.contains c = true) :
    nameChars.idxOf c < 30 ∧ nameChars.getD (nameChars.idxOf c) '@' = c := by
  have hm : c ∈ nameChars := by simpa using h
  have hlt : nameChars.idxOf c < nameChars.length := List.idxOf_lt_length_of_mem hm
  have h30 : nameChars.length = 30 := by decide +kernel
  refine ⟨h30 ▸ hlt, ?_⟩
  rw [List.getD_eq_getElem?_getD, List.getElem?_eq_getElem hlt]
  simp

/-- The digit of the name part at a place. -/
theorem digit_some {part mult i : Nat} (h : (part / mult) % nameBase = i + 1) :
    (if 0 < (part / mult) % nameBase then some (nameChars.getD ((part / mult) % nameBase - 1) '@') else none) =
      some (nameChars.getD i '@') := by
  rw [h]; simp

theorem digit_none {part mult : Nat} (h : (part / mult) % nameBase = 0) :
    (if 0 < (part / mult) % nameBase then some (nameChars.getD ((part / mult) % nameBase - 1) '@') else none) = none := by
  rw [h]; simp

theorem namePart_digits (name : List Char) (hv : isValidVariableName name = true) (hl : name.length ≤ 4) :
    0 < namePart name ∧ namePart name < maxNamePart ∧ idDigits (namePart name) = name := by
  simp only [isValidVariableName, Bool.and_eq_true, decide_eq_true_eq, List.all_eq_true] at hv
  obtain ⟨hne, hall⟩ := hv
  have hidx := fun c hc => nameChar_index (hall c hc)
  match name, hne, hl, hidx with
  | [a], _, _, hidx =>
    obtain ⟨ha, ea⟩ := hidx a (by simp)
    generalize hna : nameChars.idxOf a = na at ha ea
    have e : namePart [a] = na + 1 := by
      simp only [namePart, List.foldr_cons, List.foldr_nil, hna]; omega
    rw [e]
    refine ⟨by omega, by simp only [maxNamePart]; omega, ?_⟩
    simp only [idDigits, List.filterMap_cons, List.filterMap_nil]
    rw [digit_none (by simp only [nameBase]; omega), digit_none (by simp only [nameBase]; omega),
      digit_none (by simp only [nameBase]; omega), digit_some (i := na) (by simp only [nameBase]; omega), ea]
  | [a, b], _, _, hidx =>
    obtain ⟨ha, ea⟩ := hidx a (by simp)
    obtain ⟨hb, eb⟩ := hidx b (by simp)
    generalize hna : nameChars.idxOf a = na at ha ea
    generalize hnb : nameChars.idxOf b = nb at hb eb
    have e : namePart [a, b] = 31 * (na + 1) + (nb + 1) := by
      simp only [namePart, List.foldr_cons, List.foldr_nil, hna, hnb, nameBase]; omega
    rw [e]
    refine ⟨by omega, by simp only [maxNamePart]; omega, ?_⟩
    simp only [idDigits, List.filterMap_cons, List.filterMap_nil]
    rw [digit_none (by simp only [nameBase]; omega), digit_none (by simp only [nameBase]; omega),
      digit_some (i := na) (by simp only [nameBase]; omega), digit_some (i := nb) (by simp only [nameBase]; omega), ea, eb]
  | [a, b, c], _, _, hidx =>
    obtain ⟨ha, ea⟩ := hidx a (by simp)
    obtain ⟨hb, eb⟩ := hidx b (by simp)
    obtain ⟨hc, ec⟩ := hidx c (by simp)
    generalize hna : nameChars.idxOf a = na at ha ea
    generalize hnb : nameChars.idxOf b = nb at hb eb
    generalize hnc : nameChars.idxOf c = nc at hc ec
    have e : namePart [a, b, c] = 961 * (na + 1) + 31 * (nb + 1) + (nc + 1) := by
      simp only [namePart, List.foldr_cons, List.foldr_nil, hna, hnb, hnc, nameBase, Nat.reducePow, Nat.reduceMul, Nat.reduceMod]; omega
    rw [e]
    refine ⟨by omega, by simp only [maxNamePart]; omega, ?_⟩
    simp only [idDigits, List.filterMap_cons, List.filterMap_nil]
    rw [digit_none (by simp only [nameBase]; omega), digit_some (i := na) (by simp only [nameBase]; omega),
      digit_some (i := nb) (by simp only [nameBase]; omega), digit_some (i := nc) (by simp only [nameBase]; omega), ea, eb, ec]
  | [a, b, c, d], _, _, hidx =>
    obtain ⟨ha, ea⟩ := hidx a (by simp)
    obtain ⟨hb, eb⟩ := hidx b (by simp)
    obtain ⟨hc, ec⟩ := hidx c (by simp)
    obtain ⟨hd, ed⟩ := hidx d (by simp)
    generalize hna : nameChars.idxOf a = na at ha ea
    generalize hnb : nameChars.idxOf b = nb at hb eb
    generalize hnc : nameChars.idxOf c = nc at hc ec
    generalize hnd : nameChars.idxOf d = nd at hd ed
    have e : namePart [a, b, c, d] = 29791 * (na + 1) + 961 * (nb + 1) + 31 * (nc + 1) + (nd + 1) := by
      simp only [namePart, List.foldr_cons, List.foldr_nil, hna, hnb, hnc, hnd, nameBase, Nat.reducePow, Nat.reduceMul, Nat.reduceMod]; omega
    rw [e]
    refine ⟨by omega, by simp only [maxNamePart]; omega, ?_⟩
    simp only [idDigits, List.filterMap_cons, List.filterMap_nil]
    rw [digit_some (i := na) (by simp only [nameBase]; omega), digit_some (i := nb) (by simp only [nameBase]; omega),
      digit_some (i := nc) (by simp only [nameBase]; omega), digit_some (i := nd) (by simp only [nameBase]; omega), ea, eb, ec, ed]

theorem variableNameToId_ok {name : List Char} {m : Nat} (hv : isValidVariableName name = true)
    (hp : namePart name ≤ maxNamePart) (h1 : 1 ≤ m) (h2 : m ≤ 1162) :
    variableNameToId name m = .ok (2 * (namePart name + maxNamePart * (m - 1))) := by
  unfold variableNameToId
  dsimp only
  rw [hv, decide_eq_true hp, decide_eq_true (show m ≤ (2 ^ 32 - 1) / 2 / maxNamePart by simp only [maxNamePart]; omega),
    decide_eq_true h1]
  rfl

theorem variableNameToId_eq {name : List Char} {m id : Nat} (h : variableNameToId name m = .ok id) :
    id = 2 * (namePart name + maxNamePart * (m - 1)) ∧ 1 ≤ m := by
  unfold variableNameToId at h
  obtain ⟨_, -, h⟩ := bind_ok.1 h
  obtain ⟨_, -, h⟩ := bind_ok.1 h
  obtain ⟨_, -, h⟩ := bind_ok.1 h
  obtain ⟨_, h4, h⟩ := bind_ok.1 h
  refine ⟨(Except.ok.inj h).symm, ?_⟩
  by_contra hcon
  rw [decide_eq_false hcon] at h4
  cases h4

end Maliput.Poly
