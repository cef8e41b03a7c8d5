import Mathlib.Algebra.BigOperators.Fin
import Verif.Spec.AxisAlignedBox
import Verif.Model.KdTree

set_option autoImplicit false

/-! What a user expects of nearest neighbour and range queries, without any tree. -/
namespace Maliput.Spec

/-- Squared Euclidean distance. -/
def sqDist {d : ℕ} (a b : Fin d → ℚ) : ℚ := ∑ i, (a i - b i) ^ 2

/-- `m` is an acceptable answer to a nearest neighbour query: a stored element, and no stored element
is closer unless `m` is closer than the tolerance. -/
def NearestAnswer {d : ℕ} {P : Type} (coord : P → Fin d → ℚ) (points : List P) (q : Fin d → ℚ) (tol : ℚ)
    (m : P) : Prop :=
  m ∈ points ∧ (sqDist (coord m) q < tol ∨ ∀ x ∈ points, sqDist (coord m) q ≤ sqDist (coord x) q)

/-- The position of a stored element. -/
def position {P : Type} (coord : P → Fin 3 → ℚ) (p : P) : Vec3 := fun i => Ext.fin (coord p i)

end Maliput.Spec
