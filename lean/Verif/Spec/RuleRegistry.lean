import Verif.Model.RuleRegistry
import Verif.Spec.Rules

set_option autoImplicit false

/-! Specification of the registry: the first acceptable registration of a type id wins. -/
namespace Maliput.RuleRegistry.Spec

open Maliput.Rules

/-- The type id of a registration. -/
def typeOf : Op → String
  | .range t _ => t
  | .discrete t _ => t

/-- The values of a registration. -/
def valuesOf : Op → Values
  | .range _ l => .ranges l
  | .discrete _ l => .discreteValues l

/-- The values are acceptable: there is at least one and no two compare equal. -/
def Acceptable : Op → Prop
  | .range _ l => l ≠ [] ∧ l.Pairwise fun a b => a.eq b = false ∧ b.eq a = false
  | .discrete _ l => l ≠ [] ∧ l.Pairwise fun a b => a.eq b = false ∧ b.eq a = false

/-- `op` is the first acceptable registration of its type id in the history. -/
def IsFirst (ops : List Op) (op : Op) : Prop :=
  ∃ pre post, ops = pre ++ op :: post ∧ Acceptable op ∧ ∀ o ∈ pre, typeOf o = typeOf op → ¬ Acceptable o

end Maliput.RuleRegistry.Spec
