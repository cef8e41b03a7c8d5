import Verif.Model.MatrixTrajectory

set_option autoImplicit false
set_option linter.unusedSectionVars false

/-! Specification of trajectories of matrices: a trajectory of matrices is one trajectory of numbers for each entry. -/
namespace Maliput.Piecewise.Spec

open Maliput Poly

variable {R : Type}

/-- A matrix has the numbers of rows and columns, and as many entries. -/
def Shape {α : Type} (rows cols : Nat) (m : Mat α) : Prop := m.rows = rows ∧ m.cols = cols ∧ m.data.length = rows * cols

/-- All matrices of a trajectory have the numbers of rows and columns. -/
def Shaped (rows cols : Nat) (p : MP R) : Prop := ∀ m ∈ p.matrices, Shape rows cols m

/-- The trajectory of one entry: the same breaks, and the polynomials at that row and column. -/
def entry (p : MP R) (r c : Nat) : Except Err (PP R) :=
  return ⟨p.breaks, ← p.matrices.mapM fun m => m.get r c⟩

/-- The entries of the second trajectory are those of the first one, each changed by an operation on trajectories of numbers. -/
def EntriesOf (rows cols : Nat) (p : MP R) (op : Nat → Nat → PP R → Except Err (PP R)) (q : MP R) : Prop :=
  Shaped rows cols q ∧ ∀ r c, r < rows → c < cols → (entry p r c).bind (op r c) = entry q r c

end Maliput.Piecewise.Spec
