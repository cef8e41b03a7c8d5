import Mathlib.Analysis.Real.Sqrt
import Mathlib.Data.List.OfFn
import Verif.Model.Matrix
import Verif.Model.VectorText

set_option autoImplicit false

/-!
Model of the rest of src/maliput/math/vector.cc and src/maliput/math/matrix.cc: the constructors, the indices that are
checked, the loops as they are written, lengths and texts.  A write behind the end of a `std::array` is `Err.ub`.  Numbers
are elements of a field, real numbers for lengths.
-/
namespace Maliput.Mat

/-- `VectorBase::operator[](std::size_t) const`, src/maliput/math/vector.cc:156-160; `Matrix<N>::operator[] const` and
`Matrix<N>::row`, src/maliput/math/matrix.cc:75-78, 196-199. -/
def getAt {α : Type} {n : Nat} (v : Fin n → α) (index : Nat) : Except Err α :=
  if h : index < n then .ok (v ⟨index, h⟩) else .error .throws

/-- An assignment through `VectorBase::operator[](std::size_t)`, src/maliput/math/vector.cc:163-167, or through
`Matrix<N>::operator[]`, src/maliput/math/matrix.cc:202-205. -/
def setAt {α : Type} {n : Nat} (v : Fin n → α) (index : Nat) (x : α) : Except Err (Fin n → α) :=
  if h : index < n then .ok (Function.update v ⟨index, h⟩ x) else .error .throws

/-- An assignment to an element of a `std::array`: undefined behaviour behind its end. -/
def store {α : Type} {n : Nat} (v : Fin n → α) (index : Nat) (x : α) : Except Err (Fin n → α) :=
  if h : index < n then .ok (Function.update v ⟨index, h⟩ x) else .error .ub

/-- `matrix[i][j] = x`, src/maliput/math/matrix.cc:46, 158, 236. -/
def setEntry {K : Type} {n : Nat} (m : Matrix K n) (i j : Nat) (x : K) : Except Err (Matrix K n) := do
  let row ← getAt m i
  setAt m i (← setAt row j x)

variable {K : Type} [Field K]

/-- `VectorBase::VectorBase(std::initializer_list<double>)`, src/maliput/math/vector.cc:102-105. -/
def Vec.ofValues (n : Nat) (values : List K) : Except Err (Vec K n) := do
  throwUnless (decide (values.length = n))
  return fun i => values.getD i.val 0

/-- `VectorBase::Ones`, src/maliput/math/vector.cc:41-45. -/
def Vec.ones (n : Nat) : Vec K n := fun _ => 1

/-- `VectorBase::Zero`, src/maliput/math/vector.cc:48-52, and the default constructor, lines 92-94. -/
def Vec.zero (n : Nat) : Vec K n := fun _ => 0

/-- `VectorBase::operator+`, src/maliput/math/vector.cc:180-184, and `operator+=`, lines 187-192. -/
def Vec.add {n : Nat} (a b : Vec K n) : Vec K n := fun i => a i + b i

/-- `VectorBase::operator-`, src/maliput/math/vector.cc:195-199. -/
def Vec.sub {n : Nat} (a b : Vec K n) : Vec K n := fun i => a i - b i

/-- `VectorBase::operator/`, src/maliput/math/vector.cc:202-206. -/
def Vec.div {n : Nat} (a : Vec K n) (k : K) : Vec K n := fun i => a i / k

/-- `operator*` of a vector and a number, in both orders, src/maliput/math/vector.cc:209-219. -/
def Vec.mul {n : Nat} (a : Vec K n) (k : K) : Vec K n := fun i => a i * k

/-- `VectorBase::operator==`, src/maliput/math/vector.cc:170-172: `std::equal` goes through both arrays. -/
def Vec.beq [DecidableEq K] {n : Nat} (a b : Vec K n) : Bool :=
  (List.finRange n).all fun i => decide (a i = b i)

/-- `VectorBase::norm`, src/maliput/math/vector.cc:113-115. -/
noncomputable def Vec.norm {n : Nat} (a : Vec ℝ n) : ℝ := Real.sqrt (dot a a)

/-- `VectorBase::normalize`, src/maliput/math/vector.cc:118-121. -/
noncomputable def Vec.normalize {n : Nat} (a : Vec ℝ n) : Vec ℝ n :=
  let l := Vec.norm a
  fun i => a i / l

/-- `VectorBase::normalized`, src/maliput/math/vector.cc:124-126. -/
noncomputable def Vec.normalized {n : Nat} (a : Vec ℝ n) : Vec ℝ n := Vec.div a (Vec.norm a)

/-- `Vector3::cross`, src/maliput/math/vector.cc:255-257. -/
def Vec.cross (a v : Vec K 3) : Vec K 3 :=
  ![a 1 * v 2 - a 2 * v 1, a 2 * v 0 - a 0 * v 2, a 0 * v 1 - a 1 * v 0]

/-- The body of the loop of `Vector<N>::reduce`, src/maliput/math/vector.cc:235-240, and of `Matrix<N>::reduce`,
src/maliput/math/matrix.cc:110-115, with what is stored for an element: the flag, the counter and the array. -/
def reduceStep {α β : Type} {n : Nat} (index : Nat) (f : α → Except Err β) (s : Bool × Nat × (Fin n → β)) (x : α) :
    Except Err (Bool × Nat × (Fin n → β)) :=
  if s.1 && decide (s.2.1 = index) then .ok (false, s.2.1, s.2.2)
  else do
    let out ← store s.2.2 s.2.1 (← f x)
    return (s.1, s.2.1 + 1, out)

/-- `Vector<N>::reduce`, src/maliput/math/vector.cc:228-243. -/
def reduceVecLoop {n : Nat} (v : Vec K (n + 1)) (index : Nat) : Except Err (Vec K n) := do
  throwUnless (decide (n + 1 ≥ 2))
  throwUnless (decide (index < n + 1))
  let s ← (List.ofFn v).foldlM (reduceStep index pure) (true, 0, fun _ => 0)
  return s.2.2

/-- `Matrix<N>::reduce`, src/maliput/math/matrix.cc:102-118. -/
def reduceLoop {n : Nat} (m : Matrix K (n + 1)) (row column : Nat) : Except Err (Matrix K n) := do
  throwUnless (decide (row < n + 1))
  throwUnless (decide (column < n + 1))
  throwUnless (decide (n + 1 > 1))
  let s ← (List.ofFn m).foldlM (reduceStep row fun r => reduceVecLoop r column) (true, 0, fun _ => fun _ => 0)
  return s.2.2

/-- `Matrix<N>::Identity`, src/maliput/math/matrix.cc:43-49. -/
def identityLoop (K : Type) [Field K] (n : Nat) : Except Err (Matrix K n) :=
  (List.range n).foldlM (fun m i => setEntry m i i 1) fun _ _ => 0

/-- `Matrix<N>::Matrix(const std::initializer_list<double>&)`, src/maliput/math/matrix.cc:51-59. -/
def ofValues (n : Nat) (values : List K) : Except Err (Matrix K n) := do
  throwUnless (decide (n ≥ 1))
  throwUnless (decide (values.length = n * n))
  (List.range n).foldlM (fun m i => store m i fun j => ((values.drop (i * n)).take n).getD j.val 0) fun _ _ => 0

/-- The loop over the rows with a counter, src/maliput/math/matrix.cc:64-68, 84-88: what `f` gives for each element is
assigned to the place of the counter. -/
def countLoop {α β : Type} {n : Nat} (assign : (Fin n → β) → Nat → β → Except Err (Fin n → β)) (f : α → Except Err β)
    (l : List α) (start : Nat × (Fin n → β)) : Except Err (Nat × (Fin n → β)) :=
  l.foldlM (fun s x => do
    let out ← assign s.2 s.1 (← f x)
    return (s.1 + 1, out)) start

/-- `Matrix<N>::Matrix(const std::initializer_list<Vector<N>>&)`, src/maliput/math/matrix.cc:62-69. -/
def ofRows (n : Nat) (rows : List (Vec K n)) : Except Err (Matrix K n) := do
  throwUnless (decide (rows.length = n))
  let s ← countLoop store pure rows (0, fun _ _ => 0)
  return s.2

/-- `Matrix<N>::col`, src/maliput/math/matrix.cc:81-90. -/
def colLoop {n : Nat} (m : Matrix K n) (index : Nat) : Except Err (Vec K n) := do
  throwUnless (decide (index < n))
  let s ← countLoop setAt (fun row => getAt row index) (List.ofFn m) (0, fun _ => 0)
  return s.2

/-- `Matrix<N>::transpose`, src/maliput/math/matrix.cc:93-99. -/
def transposeLoop {n : Nat} (m : Matrix K n) : Except Err (Matrix K n) :=
  (List.range n).foldlM (fun t i => do store t i (← colLoop m i)) fun _ _ => 0

/-- The loops over all rows and columns, src/maliput/math/matrix.cc:156-160, 234-238, with what is assigned. -/
def entriesLoop (n : Nat) (f : Nat → Nat → Except Err K) : Except Err (Matrix K n) :=
  (List.range n).foldlM (fun m i => (List.range n).foldlM (fun m j => do setEntry m i j (← f i j)) m) fun _ _ => 0

/-- `Matrix<N>::operator*`, src/maliput/math/matrix.cc:232-240. -/
def mulLoop {n : Nat} (a b : Matrix K n) : Except Err (Matrix K n) :=
  entriesLoop n fun i j => do
    let row ← getAt a i
    let column ← colLoop b j
    return dot row column

mutual

/-- `Matrix<N>::cofactor(row, col)`, src/maliput/math/matrix.cc:121-126. -/
def cofactorLoop {n : Nat} (m : Matrix K (n + 2)) (row column : Nat) : Except Err K := do
  throwUnless (decide (row < n + 2))
  throwUnless (decide (column < n + 2))
  throwUnless (decide (n + 2 > 1))
  return (if (row + column) % 2 = 0 then 1 else -1) * (← determinantLoop (← reduceLoop m row column))
termination_by (n, 1)

/-- `Matrix<N>::determinant`, src/maliput/math/matrix.cc:129-141. -/
def determinantLoop : {n : Nat} → Matrix K (n + 1) → Except Err K
  | 0, m => .ok (m 0 0)
  | 1, m => .ok (m 0 0 * m 1 1 - m 0 1 * m 1 0)
  | n + 2, m => (List.finRange (n + 3)).foldlM (fun result j => do return result + m 0 j * (← cofactorLoop m 0 j.val)) 0
termination_by n => (n, 0)

end

/-- `Matrix<N>::cofactor()`, src/maliput/math/matrix.cc:154-162. -/
def cofactorsLoop {n : Nat} (m : Matrix K (n + 2)) : Except Err (Matrix K (n + 2)) := entriesLoop (n + 2) (cofactorLoop m)

/-- `Matrix<N>::adjoint`, src/maliput/math/matrix.cc:165-167. -/
def adjointLoop {n : Nat} (m : Matrix K (n + 2)) : Except Err (Matrix K (n + 2)) := do
  transposeLoop (← cofactorsLoop m)

/-- `Matrix<N>::operator/`, src/maliput/math/matrix.cc:243-247. -/
def div {n : Nat} (m : Matrix K n) (k : K) : Matrix K n := fun i => Vec.div (m i) k

/-- `Matrix<N>::operator==`, src/maliput/math/matrix.cc:208-210. -/
def beq [DecidableEq K] {n : Nat} (a b : Matrix K n) : Bool := (List.finRange n).all fun i => Vec.beq (a i) (b i)

/-- `operator<<` of a matrix, src/maliput/math/matrix.cc:263-273, and `Matrix<N>::to_str`, lines 177-181. -/
def toStr {n : Nat} (print : K → List Char) (m : Matrix K n) : List Char :=
  '{' :: List.intercalate [',', '\n'] (List.ofFn fun i => VectorText.toStr print (List.ofFn (m i))) ++ ['}']

end Maliput.Mat
