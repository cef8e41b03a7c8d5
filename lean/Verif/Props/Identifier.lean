import Mathlib.Data.Int.Basic
import Std.Data.String.ToInt
import Verif.Lemmas.Identifier

set_option autoImplicit false
set_option linter.unusedSectionVars false

/-!
C151: threads can ask for identifiers at the same time and in any order; two identifiers are equal if and only if one is a copy of
the other.
-/
namespace Maliput.Props

open Maliput Maliput.Ident

/-- Two threads get an identifier each, the second one stores first; then the first one is copied. -/
def identSteps : List Step := [.get 1 7, .get 2 7, .store 2 0, .store 1 1, .copy 7 2 1, .get 1 8, .store 1 0, .reset 7 4]

/-- C151: valid identifiers of one tag are equal if and only if they come from the same call, and differ otherwise, whatever the threads
did before and in whatever order. -/
theorem identifier_equal (ss : List Step) (hb : (Spec.run ss Spec.start).made < 2 ^ 63 - 1) (armed : Bool) {tag x y n m : Nat}
    (hx : (Spec.run ss Spec.start).vars tag x = some n) (hy : (Spec.run ss Spec.start).vars tag y = some m) :
    Ident.eq armed ((run ss start).vars tag x) ((run ss start).vars tag y) = .ok (decide (n = m)) ∧
      Ident.ne armed ((run ss start).vars tag x) ((run ss start).vars tag y) = .ok (decide (n ≠ m)) ∧
      isSameAsValid armed ((run ss start).vars tag x) ((run ss start).vars tag y) = .ok (decide (n = m)) := by
  obtain ⟨val, tagOf, h⟩ := stands ss (by simpa using hb)
  obtain ⟨hn, tn, vn, pn⟩ := var_some h hx
  obtain ⟨hm, tm, vm, pm⟩ := var_some h hy
  rw [vn] at pn
  rw [vm] at pm
  have e := val_eq h hn hm (tn.trans tm.symm)
  simp only [Ident.eq, Ident.ne, isSameAsValid, getValue_valid pn, getValue_valid pm, bind, Except.bind, pure, Except.pure, vn, vm,
    Except.ok.injEq]
  refine ⟨?_, ?_, ?_⟩
  · rw [Bool.eq_iff_iff]; simp [e]
  · rw [Bool.eq_iff_iff]; simp [e]
  · rw [Bool.eq_iff_iff]; simp [e]

/-- C151: valid identifiers of one tag are in the order of the calls that made them. -/
theorem identifier_order (ss : List Step) (hb : (Spec.run ss Spec.start).made < 2 ^ 63 - 1) (armed : Bool) {tag x y n m : Nat}
    (hx : (Spec.run ss Spec.start).vars tag x = some n) (hy : (Spec.run ss Spec.start).vars tag y = some m) :
    Ident.lt armed ((run ss start).vars tag x) ((run ss start).vars tag y) = .ok (decide (n < m)) := by
  obtain ⟨val, tagOf, h⟩ := stands ss (by simpa using hb)
  obtain ⟨hn, tn, vn, pn⟩ := var_some h hx
  obtain ⟨hm, tm, vm, pm⟩ := var_some h hy
  rw [vn] at pn
  rw [vm] at pm
  have e := val_lt h hn hm (tn.trans tm.symm)
  simp only [Ident.lt, getValue_valid pn, getValue_valid pm, bind, Except.bind, pure, Except.pure, vn, vm, Except.ok.injEq]
  rw [Bool.eq_iff_iff]; simp [e]

/-- C151: an identifier is valid if and only if it comes from a call. -/
theorem identifier_valid (ss : List Step) (hb : (Spec.run ss Spec.start).made < 2 ^ 63 - 1) (tag x : Nat) :
    isValid ((run ss start).vars tag x) = ((Spec.run ss Spec.start).vars tag x).isSome := by
  obtain ⟨val, tagOf, h⟩ := stands ss (by simpa using hb)
  cases hx : (Spec.run ss Spec.start).vars tag x with
  | none => rw [var_none h hx]; rfl
  | some n => simpa [isValid] using (var_some h hx).2.2.2

/-- C151: with assertions, everything that needs the value of an identifier that comes from no call throws. -/
theorem identifier_invalid_throws (ss : List Step) (hb : (Spec.run ss Spec.start).made < 2 ^ 63 - 1) {tag x : Nat}
    (hx : (Spec.run ss Spec.start).vars tag x = none) (y : Nat) :
    getValue true ((run ss start).vars tag x) = .error .throws ∧
      text true ((run ss start).vars tag x) = .error .throws ∧
      Ident.eq true ((run ss start).vars tag x) ((run ss start).vars tag y) = .error .throws ∧
      Ident.eq true ((run ss start).vars tag y) ((run ss start).vars tag x) = .error .throws ∧
      Ident.ne true ((run ss start).vars tag x) ((run ss start).vars tag y) = .error .throws ∧
      Ident.ne true ((run ss start).vars tag y) ((run ss start).vars tag x) = .error .throws ∧
      Ident.lt true ((run ss start).vars tag x) ((run ss start).vars tag y) = .error .throws ∧
      Ident.lt true ((run ss start).vars tag y) ((run ss start).vars tag x) = .error .throws ∧
      isSameAsValid true ((run ss start).vars tag y) ((run ss start).vars tag x) = .error .throws := by
  obtain ⟨val, tagOf, h⟩ := stands ss (by simpa using hb)
  have h0 := var_none h hx
  have g : getValue true ((run ss start).vars tag x) = .error .throws := getValue_invalid (by rw [h0]; decide)
  have gy : getValue true ((run ss start).vars tag y) = .ok ((run ss start).vars tag y) ∨
      getValue true ((run ss start).vars tag y) = .error .throws := by
    by_cases p : 0 < (run ss start).vars tag y
    · exact .inl (getValue_valid p _)
    · exact .inr (getValue_invalid p)
  refine ⟨g, ?_, ?_, ?_, ?_, ?_, ?_, ?_, ?_⟩
  · simp only [text, g, bind, Except.bind]
  · simp only [Ident.eq, g, bind, Except.bind]
  · rcases gy with gy | gy <;> simp only [Ident.eq, g, gy, bind, Except.bind]
  · simp only [Ident.ne, g, bind, Except.bind]
  · rcases gy with gy | gy <;> simp only [Ident.ne, g, gy, bind, Except.bind]
  · simp only [Ident.lt, g, bind, Except.bind]
  · rcases gy with gy | gy <;> simp only [Ident.lt, g, gy, bind, Except.bind]
  · simp only [isSameAsValid, g, bind, Except.bind]

/-- C151: an identifier that comes from no call can be compared safely with a valid one: it is not the same. -/
theorem identifier_safe_compare (ss : List Step) (hb : (Spec.run ss Spec.start).made < 2 ^ 63 - 1) (armed : Bool) {tag x y n : Nat}
    (hx : (Spec.run ss Spec.start).vars tag x = none) (hy : (Spec.run ss Spec.start).vars tag y = some n) :
    isSameAsValid armed ((run ss start).vars tag x) ((run ss start).vars tag y) = .ok false := by
  obtain ⟨val, tagOf, h⟩ := stands ss (by simpa using hb)
  obtain ⟨_, _, _, pm⟩ := var_some h hy
  simp only [isSameAsValid, getValue_valid pm, bind, Except.bind, pure, Except.pure, var_none h hx, Except.ok.injEq]
  rw [beq_eq_false_iff_ne]
  omega

/-- C151: valid identifiers of one tag have one text if and only if they come from the same call. -/
theorem identifier_text (ss : List Step) (hb : (Spec.run ss Spec.start).made < 2 ^ 63 - 1) (armed : Bool) {tag x y n m : Nat}
    (hx : (Spec.run ss Spec.start).vars tag x = some n) (hy : (Spec.run ss Spec.start).vars tag y = some m) :
    ∃ s t, text armed ((run ss start).vars tag x) = .ok s ∧ text armed ((run ss start).vars tag y) = .ok t ∧ (s = t ↔ n = m) := by
  obtain ⟨val, tagOf, h⟩ := stands ss (by simpa using hb)
  obtain ⟨hn, tn, vn, pn⟩ := var_some h hx
  obtain ⟨hm, tm, vm, pm⟩ := var_some h hy
  rw [vn] at pn
  rw [vm] at pm
  refine ⟨toString (val n), toString (val m), ?_, ?_, ?_⟩
  · simp only [text, getValue_valid pn, bind, Except.bind, pure, Except.pure, vn]
  · simp only [text, getValue_valid pm, bind, Except.bind, pure, Except.pure, vm]
  · rw [← val_eq h hn hm (tn.trans tm.symm)]
    constructor
    · intro e
      have := congrArg String.toInt? e
      simpa [Int.toInt?_repr] using this
    · intro e; rw [e]

example : (Spec.run identSteps Spec.start).made = 3 ∧ (Spec.run identSteps Spec.start).vars 7 0 = some 1 ∧
    (Spec.run identSteps Spec.start).vars 7 1 = some 0 ∧ (Spec.run identSteps Spec.start).vars 7 2 = some 0 ∧
    (Spec.run identSteps Spec.start).vars 7 4 = none ∧ (run identSteps start).vars 7 0 = 2 ∧
    (run identSteps start).vars 7 2 = 1 ∧ (run identSteps start).vars 8 0 = 1 := by decide +kernel

/-- C151: without assertions, two identifiers that come from no call are equal, and none of the comparisons throws. -/
theorem identifier_unarmed_invalid :
    Ident.eq false (start.vars 0 0) (start.vars 0 1) = .ok true ∧
      isSameAsValid false (start.vars 0 0) (start.vars 0 1) = .ok true := by decide +kernel

end Maliput.Props
