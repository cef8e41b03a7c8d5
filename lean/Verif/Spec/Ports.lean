import Verif.Model.Ports

set_option autoImplicit false
set_option linter.unusedSectionVars false

/-!
What the declarations of ports and the fixed values of input ports should come to.
-/
namespace Maliput.Ports

open Maliput

variable {K V : Type}

/-- A declaration of a port; a name that is not given is a default name. -/
inductive Decl (K V : Type)
  | vectorInput (name : Option (List Char)) (model : List K)
  | abstractInput (name : Option (List Char)) (model : Datum K V)
  /-- An input port without a model. -/
  | plainInput (name : Option (List Char)) (size : Option Nat)
  | output (name : Option (List Char)) (size : Option Nat) (prerequisites : Nat)

/-- Makes a declaration. -/
def declare (s : System K V) : Decl K V → System K V × Except Err Nat
  | .vectorInput name model => declareVectorInput s name model
  | .abstractInput name model => declareAbstractInput s name model
  | .plainInput name size => declareInput s name size
  | .output name size prerequisites => declareOutput s name size prerequisites

/-- The system after declarations of which some may throw; `none` if one of them ends the program. -/
def history (s : System K V) : List (Decl K V) → Option (System K V)
  | [] => some s
  | d :: l =>
    match declare s d with
    | (_, .error .aborts) => none
    | (s', _) => history s' l

/-- Whether a declaration is one of an input port with a model. -/
def Decl.modelled : Decl K V → Bool
  | .vectorInput _ _ => true
  | .abstractInput _ _ => true
  | _ => false

/-- Whether a declaration is one of an input port without a model. -/
def Decl.plain : Decl K V → Bool
  | .plainInput _ _ => true
  | _ => false

/-- The name of the input port that comes after `n` others. -/
def inputName (n : Nat) (name : Option (List Char)) : List Char :=
  match name with
  | some t => t
  | none => 'u' :: (toString n).toList

/-- The name of the output port that comes after `n` others. -/
def outputName (n : Nat) (name : Option (List Char)) : List Char :=
  match name with
  | some t => t
  | none => 'y' :: (toString n).toList

/-- An input port with a model, as its user knows it. -/
structure Declared (K V : Type) where
  name : List Char
  size : Option Nat
  model : Datum K V
  deriving DecidableEq

/-- One more port, unless its name is in use. -/
def withPort (ports : List (Declared K V)) (name : Option (List Char)) (size : Option Nat) (model : Datum K V) :
    List (Declared K V) :=
  if ports.any fun p => p.name = inputName ports.length name then ports
  else ports ++ [⟨inputName ports.length name, size, model⟩]

/-- The input ports after one more declaration. -/
def withDecl (ports : List (Declared K V)) : Decl K V → List (Declared K V)
  | .vectorInput name model => withPort ports name (some model.length) (.vector model)
  | .abstractInput name model => withPort ports name none model
  | _ => ports

/-- The input ports that declarations make. -/
def declared (ds : List (Decl K V)) : List (Declared K V) := ds.foldl withDecl []

/-- Whether a value may be fixed for a port: a vector of its size for a vector port, a value of the type of the model for an abstract port. -/
def Declared.suits (p : Declared K V) (d : Datum K V) : Bool :=
  match p.size, d with
  | some n, .vector xs => xs.length = n
  | some _, .other _ _ => false
  | none, d => d.type = p.model.type

/-- The context after calls that fix values, of which some may throw; `none` if one of them ends the program. -/
def fixes (c : Context K V) : List (Int × Datum K V) → Option (Context K V)
  | [] => some c
  | o :: l =>
    match fixInput c o.1 o.2 with
    | (_, .error .aborts) => none
    | (c', _) => fixes c' l

/-- The last value that suits a port among those that are given for it. -/
def lastFixed (ports : List (Declared K V)) (i : Nat) (os : List (Int × Datum K V)) : Option (Datum K V) :=
  match ports[i]? with
  | none => none
  | some p => ((os.filter fun o => o.1 = (i : Int) ∧ p.suits o.2).getLast?).map Prod.snd

end Maliput.Ports
