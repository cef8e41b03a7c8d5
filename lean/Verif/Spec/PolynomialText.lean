import Mathlib.Algebra.BigOperators.Group.List.Basic
import Mathlib.Algebra.Field.Defs

set_option autoImplicit false
set_option linter.unusedSectionVars false

/-!
Specification of the text of a polynomial: how a reader of formulas understands it.  A formula is `0`, or a sum of
signed products; a product is made of a number in parentheses and of powers of variables, with stars between them.
Nothing here mentions how the text is made.
-/
namespace Maliput.PolyText.Spec

variable {R : Type} [Field R]

/-- The characters that can be part of a name: all but the signs of a formula. -/
def isWord (c : Char) : Bool := !(['+', '-', '*', '^', '(', ')'].contains c)

/-- A variable with its power. -/
abbrev Factor := List Char × Nat

/-- Reads a power of a variable; without `^` the power is one. -/
def readFactor (t : List Char) : Option (Factor × List Char) :=
  if t.takeWhile isWord = [] then none
  else match t.dropWhile isWord with
    | '^' :: rest =>
      if rest.takeWhile Char.isDigit = [] then none
      else some ((t.takeWhile isWord, Nat.ofDigitChars 10 (rest.takeWhile Char.isDigit) 0), rest.dropWhile Char.isDigit)
    | rest => some ((t.takeWhile isWord, 1), rest)

/-- Reads powers of variables with stars between them, as many as `n`. -/
def readFactors : Nat → List Char → Option (List Factor × List Char)
  | 0, _ => none
  | n + 1, t =>
    match readFactor t with
    | none => none
    | some (f, '*' :: rest) => (readFactors n rest).map fun r => (f :: r.1, r.2)
    | some (f, rest) => some ([f], rest)

/-- What follows a number in parentheses: a star and powers, or nothing more of the product. -/
def readAfter (c : R) : List Char → Option ((R × List Factor) × List Char)
  | '*' :: t => (readFactors t.length t).map fun r => ((c, r.1), r.2)
  | t => some ((c, []), t)

/-- Reads a product: a number in parentheses and powers of variables, or one of them. -/
def readProduct (readNumber : List Char → Option R) : List Char → Option ((R × List Factor) × List Char)
  | '(' :: t =>
    match t.dropWhile (· != ')') with
    | ')' :: rest => (readNumber (t.takeWhile (· != ')'))).bind fun c => readAfter c rest
    | _ => none
  | t => (readFactors t.length t).map fun r => ((1, r.1), r.2)

/-- Reads signed products up to the end of the text, as many as `n`. -/
def readSum (readNumber : List Char → Option R) : Nat → List Char → Option (List (R × List Factor))
  | _, [] => some []
  | n + 1, '+' :: t => (readProduct readNumber t).bind fun r => (readSum readNumber n r.2).map fun l => r.1 :: l
  | n + 1, '-' :: t =>
    (readProduct readNumber t).bind fun r => (readSum readNumber n r.2).map fun l => (-r.1.1, r.1.2) :: l
  | _, _ => none

/-- Reads a formula; before the first product a plus may be left out. -/
def readFormula (readNumber : List Char → Option R) (t : List Char) : Option (List (R × List Factor)) :=
  if t = ['0'] then some []
  else if t.head? = some '-' then readSum readNumber t.length t
  else readSum readNumber (t.length + 1) ('+' :: t)

/-- The value of a formula when each name stands for a number. -/
def value (y : List Char → R) (l : List (R × List Factor)) : R :=
  (l.map fun m => m.1 * (m.2.map fun f => y f.1 ^ f.2).prod).sum

end Maliput.PolyText.Spec
