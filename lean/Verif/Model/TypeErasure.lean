import Verif.Model.Hash

set_option autoImplicit false

/-!
Model of the type-erased values of src/maliput/drake/common/value.h: the hash of a type, computed while compiling from
the text of `__PRETTY_FUNCTION__`, and `AbstractValue` and `Value<T>`, whose accessors compare hashes.  The hasher is
the one of src/maliput/drake/common/hash.h:186-211, which is the same as the one of
include/maliput/common/maliput_hash.h and is modelled in Verif/Model/Hash.lean.
-/
namespace Maliput.TypeErasure

/-- A part of the name of a type: a character, or an anonymous namespace, which is a different one in every
translation unit. -/
inductive Token
  | char (c : Char)
  | anonymous (unit : Nat)
  deriving DecidableEq, Repr

mutual
/-- A type, by the specialization of `TypeHasher` that is used for it,
src/maliput/drake/common/value.h:412-556. -/
inductive CType
  /-- A type that is not an instance of a template. -/
  | plain (name : List Token)
  /-- `T<Args...>`. -/
  | template (name : List Token) (args : Pack)
  /-- A type with `NonTypeTemplateParameter`: `T<U u>`. -/
  | constant (name : List Token) (type : CType) (value : List Char)
  /-- Types like those of Eigen: `T<U, N, Ns...>`. -/
  | matrix (name : List Token) (scalar : CType) (n : List Char) (ns : List (List Char))
/-- `Args...`, a sequence of types. -/
inductive Pack
  | nil
  | cons (a : CType) (b : Pack)
end

deriving instance DecidableEq, Repr for CType
deriving instance DecidableEq, Repr for Pack

/-- The name of a type without its template arguments. -/
def CType.name : CType → List Token
  | .plain n => n
  | .template n _ => n
  | .constant n _ _ => n
  | .matrix n _ _ _ => n

/-- The loop that advances to the `=` that is wanted, src/maliput/drake/common/value.h:316-321.  If there is no such
character, the compiler rejects the program. -/
def skipToArgument : Nat → List Char → Except Err (List Char)
  | _, [] => .error .ub
  | n, c :: rest =>
    if c = '=' then
      match n, rest with
      | _, [] => .error .ub
      | 0, _ :: rest => .ok rest
      | n + 1, _ :: rest => skipToArgument n rest
    else skipToArgument n rest

/-- The loop that omits a cast, src/maliput/drake/common/value.h:326-328. -/
def skipCast : List Char → Except Err (List Char)
  | [] => .error .ub
  | c :: rest => if c = ')' then .ok rest else skipCast rest

/-- `clang_spelling`, src/maliput/drake/common/value.h:336. -/
def clangSpelling : List Char := "(anonymous namespace)".toList

/-- `gcc_spelling`, src/maliput/drake/common/value.h:346. -/
def gccSpelling : List Char := "{anonymous}".toList

/-- `unnamed_spelling`, src/maliput/drake/common/value.h:356. -/
def unnamedSpelling : List Char := "<unnamed>".toList

/-- `anonymous_spelling`, src/maliput/drake/common/value.h:365. -/
def anonymousSpelling : List Char := "{anonymous}".toList

/-- The main loop, src/maliput/drake/common/value.h:333-395: the bytes that are added to the hash and what is returned.
The first argument is the number of characters that are passed over because a spelling of an anonymous namespace was
found (`p = pretty_iter`). -/
def scan (nested : Bool) : Nat → List Char → Except Err (List Char × Bool)
  | _, [] => .error .ub
  | k + 1, _ :: rest => scan nested k rest
  | 0, c :: rest =>
    if c = ';' ∨ c = ']' then .ok ([], true)
    else if clangSpelling.isPrefixOf (c :: rest) then do
      let r ← scan nested (clangSpelling.length - 1) rest
      return (gccSpelling ++ r.1, r.2)
    else if unnamedSpelling.isPrefixOf (c :: rest) then do
      let r ← scan nested (unnamedSpelling.length - 1) rest
      return (anonymousSpelling ++ r.1, r.2)
    else if c = '<' then .ok ([], nested)
    else if c = '(' then .ok ([], false)
    else do
      let r ← scan nested 0 rest
      return (c :: r.1, r.2)

/-- `hash_template_argument_from_pretty_func`, src/maliput/drake/common/value.h:310-396: the bytes that are added to the
hash, and whether it succeeds. -/
def hashArgument (pretty : List Char) (which : Nat) (nested cast : Bool) : Except Err (List Char × Bool) := do
  let p ← skipToArgument which pretty
  let p ← if cast && p.head? == some '(' then skipCast p else .ok p
  scan nested 0 p

/-- What the compiler puts for `__PRETTY_FUNCTION__`. -/
structure Compiler where
  /-- In `TypeHasher<T>::calc`. -/
  typeText : CType → List Char
  /-- In `ValueHasher<T, K>::calc`; the constant is given by its text. -/
  valueText : CType → List Char → List Char

/-- `int`. -/
def intType : CType := .plain ("int".toList.map .char)

/-- `IntPackHasher<Ns...>::calc`, src/maliput/drake/common/value.h:511-535. -/
def calcInts (c : Compiler) : List (List Char) → Except Err (List Char × Bool)
  | [] => .ok ([], true)
  | n :: ns => do
    let v ← hashArgument (c.valueText intType n) 1 false true
    if ns = [] then return ("int=".toList ++ v.1, v.2)
    else do
      let r ← if v.2 then calcInts c ns else .ok ([], false)
      return ("int=".toList ++ v.1 ++ ',' :: r.1, r.2)

mutual
/-- `TypeHasher<T>::calc` for the four kinds of types, src/maliput/drake/common/value.h:417-556.  For types with a
constant, whether hashing the name succeeded is not looked at. -/
def calcType (c : Compiler) : CType → Except Err (List Char × Bool)
  | .plain n => hashArgument (c.typeText (.plain n)) 0 false false
  | .template n args => do
    let s ← hashArgument (c.typeText (.template n args)) 0 true false
    let a ← if s.2 then calcPack c args else .ok ([], false)
    return (s.1 ++ '<' :: a.1 ++ ['>'], a.2)
  | .constant n u v => do
    let s ← hashArgument (c.typeText (.constant n u v)) 0 true false
    let a ← calcType c u
    let b ← if a.2 then hashArgument (c.valueText u v) 1 false true else .ok ([], false)
    return (s.1 ++ '<' :: a.1 ++ '=' :: b.1 ++ ['>'], b.2)
  | .matrix n u k ks => do
    let s ← hashArgument (c.typeText (.matrix n u k ks)) 0 true false
    let a ← if s.2 then calcType c u else .ok ([], false)
    let b ← if a.2 then calcInts c (k :: ks) else .ok ([], false)
    return (s.1 ++ '<' :: a.1 ++ ',' :: b.1 ++ ['>'], b.2)
/-- `ParameterPackHasher<Args...>::calc`, src/maliput/drake/common/value.h:432-453. -/
def calcPack (c : Compiler) : Pack → Except Err (List Char × Bool)
  | .nil => .ok ([], true)
  | .cons a .nil => calcType c a
  | .cons a (.cons b r) => do
    let s ← calcType c a
    let t ← if s.2 then calcPack c (.cons b r) else .ok ([], false)
    return (s.1 ++ ',' :: t.1, t.2)
end

/-- The hash of the bytes of a text: `FNV1aHasher` and its `add_byte`, src/maliput/drake/common/hash.h:188-211. -/
def fnv (text : List Char) : BitVec 64 :=
  (text.map fun c => UInt8.ofNat c.toNat).foldl Hash.fnvByte Hash.fnv1a.start

/-- `TypeHash<T>::calc`, src/maliput/drake/common/value.h:571-583. -/
def typeHash (c : Compiler) (t : CType) : Except Err (BitVec 64) := do
  let r ← calcType c t
  let hash := fnv r.1
  let nonzero := if hash = 0#64 then 1#64 else hash
  return if r.2 then nonzero else 0#64

/-! ### Values -/

variable {V : Type}

/-- A `Value<T>` for the type `T`, src/maliput/drake/common/value.h:197-264: what `static_type_info` returns, and the value that is stored.  `type_hash_`
is the hash of the type.  Values that are copied with `Clone` are not told apart from those that are copied with the
copy constructor. -/
structure Value (V : Type) where
  type : CType
  content : V
  deriving DecidableEq, Repr

/-- `AbstractValue::is_maybe_matched<T>`, src/maliput/drake/common/value.h:680-685. `armed` is `kDrakeAssertIsArmed`. -/
def isMaybeMatched (armed : Bool) (hash : CType → BitVec 64) (t : CType) (v : Value V) : Bool :=
  if armed || hash t == 0#64 then t == v.type else hash t == hash v.type

/-- `AbstractValue::cast<T>`, src/maliput/drake/common/value.h:687-704, after which the value is accessed: `static_cast`
to a type the object does not have is undefined behaviour. -/
def cast (armed : Bool) (hash : CType → BitVec 64) (t : CType) (v : Value V) : Except Err (Value V) :=
  if isMaybeMatched armed hash t v then (if t = v.type then .ok v else .error .ub) else .error .throws

/-- `AbstractValue::get_value<T>`, src/maliput/drake/common/value.h:88-91. -/
def getValue (armed : Bool) (hash : CType → BitVec 64) (t : CType) (v : Value V) : Except Err V := do
  return (← cast armed hash t v).content

/-- `AbstractValue::maybe_get_value<T>`, src/maliput/drake/common/value.h:659-666. -/
def maybeGetValue (armed : Bool) (hash : CType → BitVec 64) (t : CType) (v : Value V) : Except Err (Option V) :=
  if !isMaybeMatched armed hash t v then .ok none
  else if t = v.type then .ok (some v.content) else .error .ub

/-- `AbstractValue::set_value<T>`, src/maliput/drake/common/value.h:107-110 and `Value<T>::set_value`, lines 776-779. -/
def setValue (armed : Bool) (hash : CType → BitVec 64) (t : CType) (x : V) (v : Value V) : Except Err (Value V) := do
  return { ← cast armed hash t v with content := x }

/-- `Value<T>::SetFrom`, src/maliput/drake/common/value.h:786-789. -/
def setFrom (armed : Bool) (hash : CType → BitVec 64) (v other : Value V) : Except Err (Value V) := do
  return { v with content := ← getValue armed hash v.type other }

/-- `Value<T>::Clone`, src/maliput/drake/common/value.h:781-784. -/
def clone (v : Value V) : Value V := ⟨v.type, v.content⟩

/-- What is done with the values of a program; values are named by the order in which they are made. -/
inductive Op (V : Type)
  /-- `AbstractValue::Make<T>(value)`. -/
  | make (t : CType) (x : V)
  /-- `set_value<T>`, or writing through `get_mutable_value<T>`. -/
  | set (v : Nat) (t : CType) (x : V)
  | setFrom (v other : Nat)
  | clone (v : Nat)

/-- One operation.  Only values that exist can be used. -/
def exec (armed : Bool) (hash : CType → BitVec 64) (w : List (Value V)) : Op V → Except Err (List (Value V))
  | .make t x => .ok (w ++ [⟨t, x⟩])
  | .set i t x =>
    match w[i]? with
    | none => .error .ub
    | some v => do return w.set i (← setValue armed hash t x v)
  | .setFrom i j =>
    match w[i]?, w[j]? with
    | some v, some o => do return w.set i (← setFrom armed hash v o)
    | _, _ => .error .ub
  | .clone i =>
    match w[i]? with
    | none => .error .ub
    | some v => .ok (w ++ [clone v])

/-- Several operations; an exception is caught and the program goes on. -/
def run (armed : Bool) (hash : CType → BitVec 64) : List (Value V) → List (Op V) → Except Err (List (Value V))
  | w, [] => .ok w
  | w, o :: os =>
    match exec armed hash w o with
    | .ok w' => run armed hash w' os
    | .error .throws => run armed hash w os
    | .error e => .error e

end Maliput.TypeErasure
