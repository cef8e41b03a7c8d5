import Verif.Model.NamedPolynomial
import Verif.Props.Polynomial

set_option autoImplicit false
set_option linter.unusedSectionVars false

/-! C94: polynomials that are made from names. -/
namespace Maliput.Props
open Maliput Poly

variable {R : Type} [Field R] [DecidableEq R]

/-- C94. A polynomial made from a name is the variable of that name: it is made exactly for names and numbers that have an id, its simple
variable is that id, and its value is the one that the variable has. -/
theorem named_polynomial (name : List Char) (num : Nat) :
    (∀ e, (ofName name num : Except Err (Poly.Polynomial R)) = .error e ↔ variableNameToId name num = .error e) ∧
    ∀ p, (ofName name num : Except Err (Poly.Polynomial R)) = .ok p →
      variableNameToId name num = .ok (getSimpleVariable p) ∧
      (∀ values : Nat → Option R, evaluateMultivariate p values =
        match values (getSimpleVariable p) with | some x => .ok x | none => .error .outOfRange) ∧
      ∀ x : R, evaluateUnivariate p x 0 = .ok x := by
  unfold ofName
  cases h : variableNameToId name num with
  | error e => exact ⟨fun e' => by simp [bind, Except.bind], fun p hp => by cases hp⟩
  | ok id =>
    refine ⟨fun e' => by simp [bind, Except.bind, pure, Except.pure], fun p hp => ?_⟩
    obtain rfl := Except.ok.inj hp
    refine ⟨rfl, fun values => ?_, fun x => ?_⟩
    · change evaluateMultivariate (⟨[⟨1, [⟨id, 1⟩]⟩], true⟩ : Poly.Polynomial R) values = match values id with | some x => .ok x | none => .error .outOfRange
      cases hv : values id <;>
        simp [evaluateMultivariate, evaluateMonomial, evaluateTerm, hv, List.foldlM, bind, Except.bind, pure, Except.pure]
    · simp [evaluateUnivariate, Monomial.firstPower, pure, Except.pure]

/-- C94. Polynomials made from different names of up to four characters, or from different numbers, are different variables: some values
tell them apart. -/
theorem named_polynomials_differ_partial (a b : List Char) (hla : a.length ≤ 4) (hlb : b.length ≤ 4) (m n : Nat) (p q : Poly.Polynomial R)
    (hp : ofName a m = .ok p) (hq : ofName b n = .ok q) (h : ¬(a = b ∧ m = n)) :
    ∃ values : Nat → R, evaluateMultivariate p (fun v => some (values v)) = .ok 0 ∧ evaluateMultivariate q (fun v => some (values v)) = .ok 1 := by
  obtain ⟨p1, p2, -⟩ := (named_polynomial a m).2 p hp
  obtain ⟨q1, q2, -⟩ := (named_polynomial b n).2 q hq
  have hval : ∀ {name : List Char} {k id : Nat}, variableNameToId name k = .ok id → isValidVariableName name = true := by
    intro name k id h
    unfold variableNameToId at h
    obtain ⟨_, h1, -⟩ := bind_ok.1 h
    exact throwUnless_ok.1 h1
  have hne : getSimpleVariable p ≠ getSimpleVariable q := fun e =>
    h (variable_name_injective_partial a b (hval p1) hla (hval q1) hlb m n _ p1 (e ▸ q1))
  refine ⟨fun v => if v = getSimpleVariable q then 1 else 0, ?_, ?_⟩
  · rw [p2]
    simp [hne]
  · rw [q2]
    simp

example : ofName "t".toList 1 = .ok (⟨[⟨1, [⟨48, 1⟩]⟩], true⟩ : Poly.Polynomial ℚ) ∧ (ofName "T".toList 1 : Except Err (Poly.Polynomial ℚ)).isOk = false := by
  decide +kernel

end Maliput.Props
