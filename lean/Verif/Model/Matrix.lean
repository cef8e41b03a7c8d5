import Mathlib.Data.Fin.Basic
import Mathlib.Algebra.Order.Field.Basic
import Mathlib.Algebra.Order.AbsoluteValue.Basic
import Verif.Model.Basic

set_option autoImplicit false

/-!
Model of src/maliput/math/matrix.cc and of the parts of src/maliput/math/vector.cc it uses, for all sizes.  Numbers are
the elements of an ordered field.  The indices are in range by their type; the loops and
the checks that throw are modelled in VectorOps.lean, and C133 proves that they give these functions.
-/
namespace Maliput.Mat

variable {K : Type} [Field K] [LinearOrder K]

/-- `Vector<N>`, include/maliput/math/vector.h. -/
abbrev Vec (K : Type) (n : Nat) := Fin n → K

/-- `Matrix<N>`: its rows, include/maliput/math/matrix.h. -/
abbrev Matrix (K : Type) (n : Nat) := Fin n → Vec K n

/-- `VectorBase::dot`, src/maliput/math/vector.cc:107-110: `std::inner_product` adds the products from left to right. -/
def dot {n : Nat} (a b : Vec K n) : K := (List.finRange n).foldl (fun acc i => acc + a i * b i) 0

/-- `Vector<N>::reduce`, src/maliput/math/vector.cc:227-243: the elements without the one at `index`.  The loop is
written as what it leaves at each place. -/
def reduceVec {α : Type} {n : Nat} (v : Fin (n + 1) → α) (index : Fin (n + 1)) : Fin n → α :=
  fun i => if i.val < index.val then v i.castSucc else v i.succ

/-- `Matrix<N>::col`, src/maliput/math/matrix.cc:80-90. -/
def col {n : Nat} (m : Matrix K n) (index : Fin n) : Vec K n := fun i => m i index

/-- `Matrix<N>::transpose`, src/maliput/math/matrix.cc:92-99. -/
def transpose {n : Nat} (m : Matrix K n) : Matrix K n := fun i => col m i

/-- `Matrix<N>::reduce`, src/maliput/math/matrix.cc:101-118; the loop over the rows as in `reduceVec`. -/
def reduce {n : Nat} (m : Matrix K (n + 1)) (row column : Fin (n + 1)) : Matrix K n :=
  fun i => reduceVec (reduceVec m row i) column

/-- The sign of a cofactor, src/maliput/math/matrix.cc:125. -/
def sign (i j : Nat) : K := if (i + j) % 2 = 0 then 1 else -1

/-- `Matrix<N>::determinant`, src/maliput/math/matrix.cc:128-141, with the call of `cofactor(0, j)` (lines 120-126) written
out. -/
def determinant : {n : Nat} → Matrix K (n + 1) → K
  | 0, m => m 0 0
  | 1, m => m 0 0 * m 1 1 - m 0 1 * m 1 0
  | n + 2, m => (List.finRange (n + 3)).foldl
      (fun result j => result + m 0 j * (sign 0 j.val * determinant (reduce m 0 j))) 0

/-- `Matrix<N>::cofactor(row, col)`, src/maliput/math/matrix.cc:120-126. -/
def cofactorAt {n : Nat} (m : Matrix K (n + 2)) (i j : Fin (n + 2)) : K := sign i.val j.val * determinant (reduce m i j)

/-- `Matrix<N>::cofactor()`, src/maliput/math/matrix.cc:153-162. -/
def cofactor {n : Nat} (m : Matrix K (n + 2)) : Matrix K (n + 2) := fun i j => cofactorAt m i j

/-- `Matrix<N>::adjoint`, src/maliput/math/matrix.cc:164-167. -/
def adjoint {n : Nat} (m : Matrix K (n + 2)) : Matrix K (n + 2) := transpose (cofactor m)

/-- `operator*` with a number, src/maliput/math/matrix.cc:249-255. -/
def smul {n : Nat} (k : K) (m : Matrix K n) : Matrix K n := fun i j => m i j * k

/-- `kTolerance`, include/maliput/math/matrix.h:52. -/
def tolerance : K := 1 / 10 ^ 15

/-- `Matrix<N>::is_singular`, src/maliput/math/matrix.cc:143-146. -/
def isSingular {n : Nat} (m : Matrix K (n + 1)) : Bool := decide (|determinant m| < tolerance)

/-- `Matrix<N>::inverse`, src/maliput/math/matrix.cc:169-174. -/
def inverse {n : Nat} (m : Matrix K (n + 2)) : Except Err (Matrix K (n + 2)) :=
  let d := determinant m
  if |d| < tolerance then .error .throws else .ok (smul (1 / d) (adjoint m))

/-- `Matrix<N>::operator+`, src/maliput/math/matrix.cc:217-222. -/
def add {n : Nat} (a b : Matrix K n) : Matrix K n := fun i j => a i j + b i j

/-- `Matrix<N>::operator-`, src/maliput/math/matrix.cc:224-229. -/
def sub {n : Nat} (a b : Matrix K n) : Matrix K n := fun i j => a i j - b i j

/-- `Matrix<N>::operator*`, src/maliput/math/matrix.cc:231-240. -/
def mul {n : Nat} (a b : Matrix K n) : Matrix K n := fun i j => dot (a i) (col b j)

/-- `operator*` of a matrix and a vector, src/maliput/math/matrix.cc:275-283. -/
def mulVec {n : Nat} (m : Matrix K n) (v : Vec K n) : Vec K n := fun i => dot (m i) v

end Maliput.Mat
