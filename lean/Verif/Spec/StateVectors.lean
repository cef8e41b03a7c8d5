import Verif.Model.StateVectors
import Mathlib.Algebra.BigOperators.Group.List.Defs

set_option autoImplicit false

/-!
What is expected of vectors that may share elements: each one is a range of the values of one vector that has values; reading gives the
values of the range; writing changes the elements of the range and nothing else.
-/
namespace Maliput.StateVec.Spec
open Maliput StateVec

variable {K : Type}

/-- A range of the values of the vector with the address `base`. -/
structure Range where
  base : Nat
  start : Nat
  count : Nat

/-- The elements of a vector. -/
def range (h : Heap K) : Vec → Range
  | .basic a => ⟨a, 0, (h.getD a []).length⟩
  | .sub v first num => ⟨(range h v).base, (range h v).start + first.toNat, num.toNat⟩

/-- The vector exists, and so do all its elements. -/
def Live (h : Heap K) : Vec → Prop
  | .basic a => a < h.length
  | .sub v first num => Live h v ∧ 0 ≤ first ∧ 0 ≤ num ∧ first.toNat + num.toNat ≤ (range h v).count

/-- The values of a vector. -/
def contents (h : Heap K) (v : Vec) : List K := ((h.getD (range h v).base []).drop (range h v).start).take (range h v).count

/-- The place of an element of the memory. -/
def element (h : Heap K) (v : Vec) (i : Nat) : Nat × Nat := ((range h v).base, (range h v).start + i)

/-- The vectors have no element in common. -/
def Apart (h : Heap K) (v u : Vec) : Prop := ∀ i < (range h v).count, ∀ j < (range h u).count, element h v i ≠ element h u j

/-- Going through both vectors from the first element to the last, no element of the second one is seen after it was seen in the first one:
`u` has no element of `v` in common, or has them at the same or at smaller indices. -/
def NotBehind (h : Heap K) (v u : Vec) : Prop :=
  ∀ i < (range h v).count, ∀ j < (range h u).count, element h v i = element h u j → j ≤ i

/-- The memory has the same vectors with the same numbers of elements. -/
def SameShape (h h' : Heap K) : Prop := h'.length = h.length ∧ ∀ a : Nat, (h'.getD a []).length = (h.getD a []).length

/-- The values `xs` were written to the vector `v` and nothing else was changed. -/
def Writes (h h' : Heap K) (v : Vec) (xs : List K) : Prop :=
  SameShape h h' ∧ contents h' v = xs ∧
    ∀ a i : Nat, (∀ j < (range h v).count, element h v j ≠ (a, i)) → (h'.getD a [])[i]? = (h.getD a [])[i]?

/-- The values of a vector plus multiples of the values of others. -/
def linear [Semiring K] (h : Heap K) (v : Vec) (operands : List (K × Vec)) : List K :=
  (contents h v).mapIdx fun i x => x + (operands.map fun o => o.1 * (contents h o.2).getD i 0).sum

end Maliput.StateVec.Spec
