import Verif.Model.TypeErasure

set_option autoImplicit false

/-! How types are written, and what values of erased type are. -/
namespace Maliput.TypeErasure.Spec

/-- A character of a name: a single byte that is none of the marks that separate names. -/
def NameChar (c : Char) : Prop := c.toNat < 256 ∧ c ∉ [';', ']', '<', '>', '(', ',', '=', '{']

/-- A name: characters and anonymous namespaces, and something at all. -/
def NameOk (name : List Token) : Prop := name ≠ [] ∧ ∀ c, Token.char c ∈ name → NameChar c

/-- The text of a constant, which may be empty. -/
def ValueOk (value : List Char) : Prop := ∀ c ∈ value, NameChar c

mutual
/-- All names in a type are names. -/
def WellNamed : CType → Prop
  | .plain n => NameOk n
  | .template n args => NameOk n ∧ WellNamedPack args
  | .constant n u v => NameOk n ∧ WellNamed u ∧ ValueOk v
  | .matrix n u k ks => NameOk n ∧ WellNamed u ∧ ValueOk k ∧ ∀ x ∈ ks, ValueOk x
/-- All names in a sequence of types are names. -/
def WellNamedPack : Pack → Prop
  | .nil => True
  | .cons a b => WellNamed a ∧ WellNamedPack b
end

/-- A name in letters; all anonymous namespaces are written alike. -/
def letters : List Token → List Char
  | [] => []
  | .char c :: rest => c :: letters rest
  | .anonymous _ :: rest => "{anonymous}".toList ++ letters rest

/-- Texts with commas in between. -/
def commas : List (List Char) → List Char
  | [] => []
  | [a] => a
  | a :: b :: rest => a ++ ',' :: commas (b :: rest)

mutual
/-- A type in letters: `name`, `name<A,B>`, `name<U=value>` or `name<U,int=N,int=M>`. -/
def text : CType → List Char
  | .plain n => letters n
  | .template n args => letters n ++ '<' :: commas (texts args) ++ ['>']
  | .constant n u v => letters n ++ '<' :: text u ++ '=' :: v ++ ['>']
  | .matrix n u k ks => letters n ++ '<' :: text u ++ ',' :: commas ((k :: ks).map ("int=".toList ++ ·)) ++ ['>']
/-- The types of a sequence in letters. -/
def texts : Pack → List (List Char)
  | .nil => []
  | .cons a b => text a :: texts b
end

/-- A name without telling apart the anonymous namespaces of different translation units. -/
def mergeName : List Token → List Token :=
  List.map fun
    | .char c => .char c
    | .anonymous _ => .anonymous 0

mutual
/-- A type without telling apart the anonymous namespaces of different translation units. -/
def merge : CType → CType
  | .plain n => .plain (mergeName n)
  | .template n args => .template (mergeName n) (mergePack args)
  | .constant n u v => .constant (mergeName n) (merge u) v
  | .matrix n u k ks => .matrix (mergeName n) (merge u) k ks
/-- The same for a sequence of types. -/
def mergePack : Pack → Pack
  | .nil => .nil
  | .cons a b => .cons (merge a) (mergePack b)
end

/-- How compilers write a name: anonymous namespaces in any of three ways. -/
inductive Spells : List Token → List Char → Prop
  | nil : Spells [] []
  | char (c : Char) {n : List Token} {w : List Char} : Spells n w → Spells (.char c :: n) (c :: w)
  | anonymous (unit : Nat) (a : List Char) {n : List Token} {w : List Char} :
      a ∈ ["(anonymous namespace)".toList, "{anonymous}".toList, "<unnamed>".toList] → Spells n w →
      Spells (.anonymous unit :: n) (a ++ w)

/-- What ends an argument in the text of a function. -/
def Stop (tail : List Char) : Prop := ∃ rest, tail = ';' :: rest ∨ tail = ']' :: rest

/-- The type is an instance of a template. -/
def IsInstance : CType → Prop
  | .plain _ => False
  | _ => True

/-- The text of a function with the template arguments `T = name` resp. `T = type; K = value`: before the `=` there is
no other `=`; the name of a template may be followed by its arguments; the value may be preceded by a cast. -/
structure Conforming (c : Compiler) : Prop where
  type : ∀ t, ∃ head w tail, '=' ∉ head ∧ Spells t.name w ∧ c.typeText t = head ++ '=' :: ' ' :: (w ++ tail) ∧
    (Stop tail ∨ IsInstance t ∧ ∃ rest, tail = '<' :: rest ∧ rest.head? ≠ some 'u')
  value : ∀ t v, ∃ head head' cast tail, '=' ∉ head ∧ '=' ∉ head' ∧
    (cast = [] ∨ ∃ x, ')' ∉ x ∧ cast = '(' :: x ++ [')']) ∧ Stop tail ∧
    c.valueText t v = head ++ '=' :: ' ' :: (head' ++ '=' :: ' ' :: (cast ++ v ++ tail))

/-! ### Values -/

variable {V : Type}

/-- What the operations on values mean: a value is read and written only as what it is. -/
def ideal (w : List (Value V)) : Op V → List (Value V)
  | .make t x => w ++ [⟨t, x⟩]
  | .set i t x =>
    match w[i]? with
    | some v => if v.type = t then w.set i ⟨t, x⟩ else w
    | none => w
  | .setFrom i j =>
    match w[i]?, w[j]? with
    | some v, some o => if v.type = o.type then w.set i o else w
    | _, _ => w
  | .clone i =>
    match w[i]? with
    | some v => w ++ [v]
    | none => w

/-- The number of values there are after an operation. -/
def made (n : Nat) : Op V → Nat
  | .make _ _ => n + 1
  | .clone _ => n + 1
  | _ => n

/-- The operations use only values that exist. -/
def AllExist : Nat → List (Op V) → Prop
  | _, [] => True
  | n, o :: os =>
    (match o with
    | .make _ _ => True
    | .set i _ _ => i < n
    | .setFrom i j => i < n ∧ j < n
    | .clone i => i < n) ∧ AllExist (made n o) os

/-- The types that occur. -/
def Mentions (w : List (Value V)) (ops : List (Op V)) (t : CType) : Prop :=
  (∃ v ∈ w, v.type = t) ∨ ∃ o ∈ ops, (∃ x, o = .make t x) ∨ ∃ i x, o = .set i t x

end Maliput.TypeErasure.Spec
