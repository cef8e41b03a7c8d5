import Verif.Model.Basic

set_option autoImplicit false
set_option linter.unusedSectionVars false

/-!
Model of `TypeSafeIndex`, src/maliput/drake/common/type_safe_index.h:107-519, with a 32-bit `int`.

An index is the `int` it holds.  `armed` tells whether assertions are compiled in (src/maliput/drake/common/drake_assert.h:74-81).  Deleted
operators and the hash are not part of this model.
-/
namespace Maliput.TypeSafeIndex

open Maliput

/-- `kMaxIndex`, src/maliput/drake/common/type_safe_index.h:478. -/
def maxIndex : Int := 2147483647

/-- `kDefaultInvalid`, src/maliput/drake/common/type_safe_index.h:466; the value of a default index, line 151 and 468. -/
def defaultInvalid : Int := -1234567

/-- The result of an operation on `int`; overflow is undefined. -/
def signed (x : Int) : Except Err Int := if -2147483648 ≤ x ∧ x ≤ 2147483647 then .ok x else .error .ub

/-- `AssertValid` within `MALIPUT_DRAKE_ASSERT_VOID`, src/maliput/drake/common/type_safe_index.h:447-453. -/
def assertValid (armed : Bool) (x : Int) : Except Err Unit :=
  if armed = true ∧ (x < 0 ∨ x > maxIndex) then .error .throws else .ok ()

/-- `AssertNoOverflow` within `MALIPUT_DRAKE_ASSERT_VOID`, src/maliput/drake/common/type_safe_index.h:457-462. -/
def assertNoOverflow (armed : Bool) (x delta : Int) : Except Err Unit :=
  if armed = true ∧ delta > 0 ∧ x > maxIndex - delta then .error .throws else .ok ()

/-- `TypeSafeIndex` from an `int64_t`, src/maliput/drake/common/type_safe_index.h:156-160. -/
def construct (armed : Bool) (i : Int) : Except Err Int := do
  assertValid armed i
  return i.bmod 4294967296

/-- The conversion to `int`, src/maliput/drake/common/type_safe_index.h:188-191. -/
def toInt (armed : Bool) (x : Int) : Except Err Int := do
  assertValid armed x
  return x

/-- `is_valid`, src/maliput/drake/common/type_safe_index.h:195-201. -/
def isValid (armed : Bool) (x : Int) : Except Err Bool :=
  if armed = true ∧ ¬(x ≥ 0 ∨ x = defaultInvalid) then .error .aborts else .ok (x ≥ 0)

/-- The move assignment, src/maliput/drake/common/type_safe_index.h:176-180, of one index to another: both afterwards.  The move constructor,
line 168, is the same. -/
def moveTo (_target source : Int) : Int × Int := (source, defaultInvalid)

/-- The move assignment, src/maliput/drake/common/type_safe_index.h:176-180, of an index to itself. -/
def moveToSelf (_x : Int) : Int := defaultInvalid

/-- Runs checks and a change, then checks of what came out, and gives a result. -/
def change (x : Int) (before : Except Err Int) (after : Int → Except Err Int) : Int × Except Err Int :=
  match before with
  | .error e => (x, .error e)
  | .ok y => (y, after y)

/-- The prefix `operator++`, src/maliput/drake/common/type_safe_index.h:209-214. -/
def preInc (armed : Bool) (x : Int) : Int × Except Err Int :=
  change x (do assertValid armed x; assertNoOverflow armed x 1; signed (x + 1)) fun y => .ok y

/-- The postfix `operator++`, src/maliput/drake/common/type_safe_index.h:217-222. -/
def postInc (armed : Bool) (x : Int) : Int × Except Err Int :=
  change x (do assertValid armed x; assertNoOverflow armed x 1; signed (x + 1)) fun y => construct armed (y - 1)

/-- The prefix `operator--`, src/maliput/drake/common/type_safe_index.h:227-232. -/
def preDec (armed : Bool) (x : Int) : Int × Except Err Int :=
  change x (do assertValid armed x; signed (x - 1)) fun y => do
    assertValid armed y
    return y

/-- The postfix `operator--`, src/maliput/drake/common/type_safe_index.h:237-242. -/
def postDec (armed : Bool) (x : Int) : Int × Except Err Int :=
  change x (do assertValid armed x; signed (x - 1)) fun y => do
    assertValid armed y
    construct armed (y + 1)

/-- The `operator+=` of an `int`, src/maliput/drake/common/type_safe_index.h:251-257. -/
def addInt (armed : Bool) (x i : Int) : Int × Except Err Int :=
  change x (do assertValid armed x; assertNoOverflow armed x i; signed (x + i)) fun y => do
    assertValid armed y
    return y

/-- The `operator+=` of an index, src/maliput/drake/common/type_safe_index.h:260-268. -/
def addIndex (armed : Bool) (x o : Int) : Int × Except Err Int :=
  change x (do assertValid armed x; assertValid armed o; assertNoOverflow armed x o; signed (x + o)) fun y => do
    assertValid armed y
    return y

/-- The argument `-i` of a check that is made only if assertions are compiled in, src/maliput/drake/common/type_safe_index.h:279. -/
def negated (armed : Bool) (i : Int) : Except Err Int := if armed = true then signed (-i) else .ok 0

/-- The `operator-=` of an `int`, src/maliput/drake/common/type_safe_index.h:277-283. -/
def subInt (armed : Bool) (x i : Int) : Int × Except Err Int :=
  change x (do assertValid armed x; assertNoOverflow armed x (← negated armed i); signed (x - i)) fun y => do
    assertValid armed y
    return y

/-- The `operator-=` of an index, src/maliput/drake/common/type_safe_index.h:286-296. -/
def subIndex (armed : Bool) (x o : Int) : Int × Except Err Int :=
  change x (do assertValid armed x; assertValid armed o; signed (x - o)) fun y => do
    assertValid armed y
    return y

/-- The six comparisons. -/
inductive Rel
  | eq | ne | lt | le | gt | ge
  deriving DecidableEq

/-- The comparisons of `int`. -/
def Rel.holds : Rel → Int → Int → Bool
  | .eq, x, y => x = y
  | .ne, x, y => x ≠ y
  | .lt, x, y => x < y
  | .le, x, y => x ≤ y
  | .gt, x, y => x > y
  | .ge, x, y => x ≥ y

/-- The comparisons of two indices, src/maliput/drake/common/type_safe_index.h:325-329, 343-347, 361-365, 379-383, 397-401, 415-419. -/
def compareIndex (armed : Bool) (r : Rel) (x y : Int) : Except Err Bool := do
  assertValid armed x
  assertValid armed y
  return r.holds x y

/-- `kMaxIndex` as a value of an unsigned type of `w` bits. -/
def castMax (w : Nat) : Int := maxIndex % 2 ^ w

/-- The comparisons of an index with a value of an unsigned type of `w` bits, src/maliput/drake/common/type_safe_index.h:332-336, 350-354,
368-372, 386-390, 404-408, 422-426. -/
def compareUnsigned (armed : Bool) (w : Nat) (r : Rel) (x v : Int) : Except Err Bool := do
  assertValid armed x
  return match r with
    | .eq => v ≤ castMax w && x = v.bmod 4294967296
    | .ne => v > castMax w || x ≠ v.bmod 4294967296
    | .lt => v > castMax w || x < v.bmod 4294967296
    | .le => v > castMax w || x ≤ v.bmod 4294967296
    | .gt => v ≤ castMax w && x > v.bmod 4294967296
    | .ge => v ≤ castMax w && x ≥ v.bmod 4294967296

/-- The comparisons of a value of an unsigned type of `w` bits with an index, src/maliput/drake/common/type_safe_index.h:481-515. -/
def unsignedCompare (armed : Bool) (w : Nat) (r : Rel) (v x : Int) : Except Err Bool :=
  match r with
  | .eq => compareUnsigned armed w .eq x v
  | .ne => compareUnsigned armed w .ne x v
  | .lt => compareUnsigned armed w .ge x v
  | .le => compareUnsigned armed w .gt x v
  | .gt => compareUnsigned armed w .le x v
  | .ge => compareUnsigned armed w .lt x v

end Maliput.TypeSafeIndex
