set_option autoImplicit false

/-!
# Texts of vectors

What `VectorBase::FromStr` documents to read: numbers between braces, separated by commas.
-/
namespace Maliput.VectorText.Spec

variable {R : Type}

/-- The characters of the format which are not part of numbers. -/
def special : List Char := ['{', '}', ',']

/-- Pieces of text with commas between them. -/
def body : List (List Char) → List Char
  | [] => []
  | [p] => p
  | p :: ps => p ++ ',' :: body ps

/-- A parser of numbers, as `std::stod` is, which stops at a comma and at a brace. -/
def Stops (stod : List Char → Option R) : Prop :=
  ∀ p rest c, c = ',' ∨ c = '}' → (∀ x ∈ p, x ∉ special) → stod (p ++ c :: rest) = stod p

/-- A parser of numbers, as `std::stod` is, which skips spaces before the number. -/
def Skips (stod : List Char → Option R) : Prop := ∀ l, stod (' ' :: l) = stod l

/-- What reading a written number gives: the number rounded to the digits written, `r`. No digit is a comma or a brace. -/
def Written (stod : List Char → Option R) (print : R → List Char) (r : R → R) : Prop :=
  ∀ x, stod (print x) = some (r x) ∧ ∀ c ∈ print x, c ∉ special

end Maliput.VectorText.Spec
