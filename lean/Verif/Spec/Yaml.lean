import Verif.Model.Yaml

set_option autoImplicit false

/-!
How a document is read, independently of the code: the value of a key of a mapping, and the text and the
numbers that scalars stand for.
-/
namespace Maliput.Yaml.Spec

/-- `d` is a mapping and `v` is the value of its first pair with key `k`. -/
def HasField (d : Doc) (k : String) (v : Doc) : Prop :=
  ∃ before after, d = .map (before ++ (.scalar k, v) :: after) ∧ ∀ e ∈ before, e.1 ≠ .scalar k

/-- `d` is a mapping without the key `k`. -/
def LacksField (d : Doc) (k : String) : Prop := ∃ l, d = .map l ∧ ∀ e ∈ l, e.1 ≠ .scalar k

/-- `d` stands for the text `s`: it is the scalar `s`, or the null node, which reads "null". -/
def Reads (d : Doc) (s : String) : Prop := d = .scalar s ∨ d = .null ∧ s = "null"

/-- `d` stands for the number `q`. -/
def ReadsNumber (c : Conv) (d : Doc) (q : ℚ) : Prop := ∃ s, d = .scalar s ∧ c.toDouble s = some q

/-- `d` stands for the integer `i`. -/
def ReadsInt (c : Conv) (d : Doc) (i : ℤ) : Prop := ∃ s, d = .scalar s ∧ c.toInt s = some i

/-- The key `k` of the mapping `d` has a value that stands for the text `s`. -/
def FieldReads (d : Doc) (k s : String) : Prop := ∃ v, HasField d k v ∧ Reads v s

end Maliput.Yaml.Spec
