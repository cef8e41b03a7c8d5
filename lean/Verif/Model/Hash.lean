import Verif.Model.Basic

set_option autoImplicit false

/-!
Model of include/maliput/common/maliput_hash.h.  The types `hash_append` is overloaded for are described by `Ty`.  The
memory of an integer is little-endian, as on the platforms of the 64-bit `size_t` the code requires.  A `double` is its
IEEE 754 bit pattern.
-/
namespace Maliput.Hash

/-- The types with an overload of `hash_append`.  `int n`: integral types and enumerations of `n` bytes; `range t`:
`std::set<t>`, and `std::map<k, v>` as `range (pair k v)`; an identifier is `string`
(include/maliput/api/type_specific_identifier.h:91-96, include/maliput/api/unique_id.h:64-69). -/
inductive Ty
  | int (bytes : Nat)
  | float
  | string
  | pair (a b : Ty)
  | optional (a : Ty)
  | range (a : Ty)
  deriving DecidableEq, Repr

/-- The values of a type: integers and doubles by the number their memory represents, strings by their characters, sets
and maps by their elements in order. -/
def Ty.Val : Ty → Type
  | .int _ => Nat
  | .float => Nat
  | .string => List UInt8
  | .pair a b => a.Val × b.Val
  | .optional a => Option a.Val
  | .range a => List a.Val

/-- The memory of an integer of `n` bytes. -/
def bytesOf : Nat → Nat → List UInt8
  | 0, _ => []
  | n + 1, x => UInt8.ofNat (x % 256) :: bytesOf n (x / 256)

/-- `std::isnan`: all bits of the exponent are set and the fraction is not zero. -/
def isNaN (bits : Nat) : Bool := bits / 2 ^ 52 % 2 ^ 11 == 2 ^ 11 - 1 && bits % 2 ^ 52 != 0

/-- `item == 0.0`: all bits but the sign are zero. -/
def isZero (bits : Nat) : Bool := bits % 2 ^ 63 == 0

/-- A `HashAlgorithm`: the state, and `operator()(data, length)`. -/
structure Algorithm (σ : Type) where
  start : σ
  feed : σ → List UInt8 → σ

variable {σ : Type}

/-- `hash_append` for the integral types and enumerations, include/maliput/common/maliput_hash.h:130-140. -/
def appendInt (h : Algorithm σ) (n : Nat) (s : σ) (x : Nat) : σ := h.feed s (bytesOf n x)

/-- `hash_append` for floating point values, include/maliput/common/maliput_hash.h:142-154.  The exception leaves a
`noexcept` function, so the program is terminated. -/
def appendFloat (h : Algorithm σ) (s : σ) (x : Nat) : Except Err σ :=
  if isNaN x then .error .aborts
  else if isZero x then .ok (h.feed s (bytesOf 8 0)) else .ok (h.feed s (bytesOf 8 x))

/-- The loop of `hash_append_range`, include/maliput/common/maliput_hash.h:196-198. -/
def appendAll {α : Type} (f : σ → α → Except Err σ) : σ → List α → Except Err σ
  | s, [] => .ok s
  | s, x :: xs => do
    let s ← f s x
    appendAll f s xs

/-- `hash_append`, include/maliput/common/maliput_hash.h:130-220. -/
def hashAppend (h : Algorithm σ) : (t : Ty) → σ → t.Val → Except Err σ
  | .int n, s, x => .ok (appendInt h n s x)
  | .float, s, x => appendFloat h s x
  | .string, s, x => .ok (appendInt h 8 (h.feed s x) x.length)
  | .pair a b, s, x => do
    let s ← hashAppend h a s x.1
    hashAppend h b s x.2
  | .optional a, s, (x : Option a.Val) => do
    let s ← match x with
      | some v => hashAppend h a s v
      | none => pure s
    return appendInt h 1 s (if x.isSome then 1 else 0)
  | .range a, s, (x : List a.Val) => do
    let s ← appendAll (fun s v => hashAppend h a s v) s x
    return appendInt h 8 s x.length

/-- One byte of `FNV1aHasher`, include/maliput/common/maliput_hash.h:250 and include/maliput/common/maliput_hash.h:263. -/
def fnvByte (hash : BitVec 64) (byte : UInt8) : BitVec 64 :=
  (hash ^^^ byte.toBitVec.setWidth 64) * 1099511628211#64

/-- `FNV1aHasher`, include/maliput/common/maliput_hash.h:241-264. -/
def fnv1a : Algorithm (BitVec 64) where
  start := 0xcbf29ce484222325#64
  feed s bytes := bytes.foldl fnvByte s

/-- `uhash<HashAlgorithm>::operator()`, include/maliput/common/maliput_hash.h:225-236.  `DefaultHash` is this with
`fnv1a`. -/
def uhash (h : Algorithm σ) (t : Ty) (x : t.Val) : Except Err σ := hashAppend h t h.start x

/-- `std::hash` of an identifier with the given characters, include/maliput/api/type_specific_identifier.h:107-109 and
include/maliput/api/type_specific_identifier.h:91-96. -/
def hashId (characters : List UInt8) : Except Err (BitVec 64) := uhash fnv1a .string characters

/-- The type of the three members `hash_append` reads of a `UniqueBulbId`,
include/maliput/api/rules/traffic_lights.h:428-435. -/
def uniqueBulbId : Ty := .pair (.pair .string .string) .string

end Maliput.Hash
