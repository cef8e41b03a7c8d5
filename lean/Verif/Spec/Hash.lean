import Mathlib.Data.List.Forall2
import Verif.Model.Hash

set_option autoImplicit false

/-! Specification of the values of the hashable types. -/
namespace Maliput.Hash.Spec

/-- The bits fit into the memory of the value, and sizes into `size_t`. -/
def Valid : (t : Ty) → t.Val → Prop
  | .int n, (x : Nat) => x < 256 ^ n
  | .float, (x : Nat) => x < 2 ^ 64
  | .string, (x : List UInt8) => x.length < 2 ^ 64
  | .pair a b, x => Valid a x.1 ∧ Valid b x.2
  | .optional a, (x : Option a.Val) => ∀ v ∈ x, Valid a v
  | .range a, (x : List a.Val) => x.length < 2 ^ 64 ∧ ∀ v ∈ x, Valid a v

/-- The bits, without the sign, are above those of infinity. -/
def NotANumber (x : Nat) : Prop := 0x7ff0000000000000 < x % 2 ^ 63

/-- The bits, without the sign, are those of zero. -/
def Zero (x : Nat) : Prop := x % 2 ^ 63 = 0

/-- `operator==`. -/
def Equal : (t : Ty) → t.Val → t.Val → Prop
  | .int _, x, y => x = y
  | .float, x, y => ¬NotANumber x ∧ ¬NotANumber y ∧ (x = y ∨ Zero x ∧ Zero y)
  | .string, x, y => x = y
  | .pair a b, x, y => Equal a x.1 y.1 ∧ Equal b x.2 y.2
  | .optional a, x, y => Option.Rel (Equal a) x y
  | .range a, x, y => List.Forall₂ (Equal a) x y

/-- Some part of the value is not a number. -/
def HasNaN : (t : Ty) → t.Val → Prop
  | .int _, _ => False
  | .float, x => NotANumber x
  | .string, _ => False
  | .pair a b, x => HasNaN a x.1 ∨ HasNaN b x.2
  | .optional a, (x : Option a.Val) => ∃ v ∈ x, HasNaN a v
  | .range a, (x : List a.Val) => ∃ v ∈ x, HasNaN a v

/-- An algorithm that keeps the bytes it is given. -/
def recorder : Algorithm (List UInt8) := ⟨[], fun s bytes => s ++ bytes⟩

end Maliput.Hash.Spec
