set_option autoImplicit false

/-!
# Vectors as text

`src/maliput/math/vector.cc`: `VectorBase::FromStr` and `VectorBase::to_str`. A `std::string` is a list of characters. How
numbers are written and read, `operator<<(double)` and `std::stod`, are parameters.
-/
namespace Maliput.VectorText

/-- The exceptions of `FromStr`: an `assertion_error` or one of the standard library, `std::invalid_argument` or
`std::out_of_range` (src/maliput/math/vector.cc:55-90). -/
inductive Refusal
  | assertion
  | standard
deriving DecidableEq, Repr

/-- `std::string::find_first_of` for one character, from an index on (src/maliput/math/vector.cc:69, 76, 79). -/
def find (c : Char) (l : List Char) (start : Nat) : Option Nat := ((l.drop start).findIdx? (· == c)).map (start + ·)

/-- A position minus one, as a number of characters: `npos` and a wrap around are more than all characters
(src/maliput/math/vector.cc:69, 79, 82). -/
def count (l : List Char) : Option Nat → Nat
  | none => l.length
  | some 0 => l.length
  | some (p + 1) => p

/-- `std::string::substr` (src/maliput/math/vector.cc:69, 79, 81). -/
def substr (l : List Char) (pos n : Nat) : Except Refusal (List Char) :=
  if l.length < pos then .error .standard else .ok ((l.drop pos).take n)

variable {R : Type}

/-- A number, or the exception of `std::stod` (src/maliput/math/vector.cc:70, 84). -/
def number (stod : List Char → Option R) (l : List Char) : Except Refusal R :=
  match stod l with
  | some x => .ok x
  | none => .error .standard

/-- The loop of `FromStr` for the last `n` numbers, after the comma at the given position; `npos + 1` is zero
(src/maliput/math/vector.cc:72-86). -/
def values (stod : List Char → Option R) (l : List Char) : Nat → Option Nat → Except Refusal (List R)
  | 0, _ => .ok []
  | n + 1, previous => do
    let start := match previous with
      | none => 0
      | some p => p + 1
    let comma := find ',' l start
    let text ← substr l start (count l (if n = 0 then find '}' l 0 else comma))
    let x ← number stod text
    let rest ← values stod l n comma
    pure (x :: rest)

/-- `VectorBase<N>::FromStr` (src/maliput/math/vector.cc:54-89). -/
def fromStr (stod : List Char → Option R) (n : Nat) (l : List Char) : Except Refusal (List R) :=
  if l.count '{' ≠ 1 ∨ l.count '}' ≠ 1 ∨ l.count ',' + 1 ≠ n then .error .assertion
  else if n = 1 then do
    let text ← substr l 1 (count l (find '}' l 0))
    let x ← number stod text
    pure [x]
  else values stod l n (some 0)

/-- `VectorBase::to_str` (src/maliput/math/vector.cc:128-142). -/
def toStr (print : R → List Char) (v : List R) : List Char :=
  '{' :: List.intercalate [',', ' '] (v.map print) ++ ['}']

end Maliput.VectorText
