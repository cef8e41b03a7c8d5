import Verif.Model.InitialValueProblem

set_option autoImplicit false

/-!
Model of `ScalarInitialValueProblem`, src/maliput/drake/systems/analysis/scalar_initial_value_problem.h, and of
`AntiderivativeFunction`, src/maliput/drake/systems/analysis/antiderivative_function.h, as wrappers of the initial value problem with
vectors of Verif/Model/InitialValueProblem.lean.  The settings of the integrator are those that it is given through
`get_mutable_integrator` before the first call.
-/
namespace Maliput.ScalarIvp

open Maliput
open Maliput.RouteGraph (Stop)
open Maliput.Ivp (Setup State Piece)

variable {R : Type} [Field R] [LinearOrder R]

/-- `ScalarOdeContext`, src/maliput/drake/systems/analysis/scalar_initial_value_problem.h:66-82. -/
structure Values (R : Type) where
  t0 : Option R
  x0 : Option R
  k : Option (List R)

/-- `ToVectorIVPOdeContext`, src/maliput/drake/systems/analysis/scalar_initial_value_problem.h:192-202. -/
def Values.toVector (v : Values R) : Ivp.Values R := ⟨v.t0, v.x0.map fun x => [x], v.k⟩

/-- The function that the constructor of `ScalarInitialValueProblem` makes,
src/maliput/drake/systems/analysis/scalar_initial_value_problem.h:99-102.  `x[0]` of a vector without elements is undefined. -/
def vectorFunction (f : R → R → List R → Except Err R) (t : R) (x k : List R) : Except Err (List R) :=
  match x with
  | [] => .error .ub
  | y :: _ => (f t y k).map fun d => [d]

/-- The constructor of `ScalarInitialValueProblem`, src/maliput/drake/systems/analysis/scalar_initial_value_problem.h:97-105, with the
settings of the integrator. -/
def make (f : R → R → List R → Except Err R) (root : R → R) (initialStep maxStep accuracy : R) (v : Values R) : Except Err (Setup R) := do
  let defaults ← v.toVector.complete
  return ⟨vectorFunction f, root, defaults, initialStep, maxStep, accuracy⟩

/-- `Solve`, src/maliput/drake/systems/analysis/scalar_initial_value_problem.h:120-122. -/
def solve (c : Setup R) (n m : Nat) (tf : R) (v : Values R) (s : State R) : State R × Except Stop R :=
  match Ivp.solve c n m tf v.toVector s with
  | (s', .error e) => (s', .error e)
  | (s', .ok []) => (s', .error (.err .ub))
  | (s', .ok (x :: _)) => (s', .ok x)

/-- `DenseSolve`, src/maliput/drake/systems/analysis/scalar_initial_value_problem.h:152-160, with the constructor of `ScalarViewDenseOutput`,
src/maliput/drake/systems/analysis/scalar_view_dense_output.h:32-43, whose base output is not empty here: the pieces of the base output. -/
def denseSolve (c : Setup R) (n m : Nat) (tf : R) (v : Values R) (s : State R) : State R × Except Stop (List (Piece R)) :=
  match Ivp.denseSolve c n m tf v.toVector s with
  | (s', .error e) => (s', .error e)
  | (s', .ok d) => (s', if c.defaults.x0.length ≤ 0 then .error (.err .throws) else .ok d)

/-- A call of a member function. -/
inductive Call (R : Type)
  | solve (tf : R) (v : Values R)
  | denseSolve (tf : R) (v : Values R)

/-- The state after a call, whether it returned or threw. -/
def call (c : Setup R) (n m : Nat) : Call R → State R → State R
  | .solve tf v, s => (solve c n m tf v s).1
  | .denseSolve tf v, s => (denseSolve c n m tf v s).1

/-- The state after any calls on a new problem. -/
def after (c : Setup R) (n m : Nat) (calls : List (Call R)) : State R := calls.foldl (fun s a => call c n m a s) (Ivp.fresh c)

/-- A call that returns. -/
def Returned (c : Setup R) (n m : Nat) (s : State R) : Call R → Prop
  | .solve tf v => ∃ x, (solve c n m tf v s).2 = .ok x
  | .denseSolve tf v => ∃ d, (denseSolve c n m tf v s).2 = .ok d

/-! ### Antiderivatives -/

/-- `IntegrableFunctionContext`, src/maliput/drake/systems/analysis/antiderivative_function.h:66-77. -/
structure Bound (R : Type) where
  v : Option R
  k : Option (List R)

/-- The constructor of `AntiderivativeFunction`, src/maliput/drake/systems/analysis/antiderivative_function.h:88-109. -/
def antiderivative (f : R → List R → Except Err R) (root : R → R) (initialStep maxStep accuracy : R) (b : Bound R) : Except Err (Setup R) :=
  make (fun t _ k => f t k) root initialStep maxStep accuracy ⟨some (b.v.getD 0), some 0, some (b.k.getD [])⟩

/-- The values that `Evaluate` and `MakeDenseEvalFunction` pass on, src/maliput/drake/systems/analysis/antiderivative_function.h:126, 162. -/
def Bound.values (b : Bound R) : Values R := ⟨b.v, none, b.k⟩

/-- `Evaluate`, src/maliput/drake/systems/analysis/antiderivative_function.h:125-128. -/
def evaluate (c : Setup R) (n m : Nat) (u : R) (b : Bound R) (s : State R) : State R × Except Stop R := solve c n m u b.values s

/-- `MakeDenseEvalFunction`, src/maliput/drake/systems/analysis/antiderivative_function.h:158-164. -/
def makeDense (c : Setup R) (n m : Nat) (w : R) (b : Bound R) (s : State R) : State R × Except Stop (List (Piece R)) :=
  denseSolve c n m w b.values s

end Maliput.ScalarIvp
