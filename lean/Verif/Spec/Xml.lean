set_option autoImplicit false

/-!
Specification: what a reader of XML makes of a text, for documents of elements with attributes and no text between them.
-/
namespace Maliput.Xml

/-- An element with its attributes and the elements in it. -/
inductive Element
  | mk (name : List Char) (attributes : List (List Char × List Char)) (children : List Element)

/-- Where a reader is. -/
inductive Mode
  /-- Between tags. -/
  | content
  /-- After `<`. -/
  | opened
  /-- In the declaration `<? ... ?>`; the flag tells whether the last character was `?`. -/
  | declaration (mark : Bool)
  /-- In the name of a tag. -/
  | name (n : List Char)
  /-- After the name of a tag or an attribute of it. -/
  | inside (n : List Char) (as : List (List Char × List Char))
  /-- In the name of an attribute. -/
  | key (n : List Char) (as : List (List Char × List Char)) (k : List Char)
  /-- After `=`. -/
  | equals (n : List Char) (as : List (List Char × List Char)) (k : List Char)
  /-- In the value of an attribute. -/
  | value (n : List Char) (as : List (List Char × List Char)) (k v : List Char)
  /-- After `/` at the end of a tag of an element without content. -/
  | slash (n : List Char) (as : List (List Char × List Char))
  /-- In an end tag. -/
  | closing (n : List Char)

/-- An element whose end tag has not been read. -/
structure Frame where
  name : List Char
  attributes : List (List Char × List Char)
  children : List Element

/-- What has been read: the open elements from the innermost, and the elements outside all of them. -/
structure Reader where
  mode : Mode
  stack : List Frame
  done : List Element

/-- A space, a tab or an end of line. -/
def isBlank (c : Char) : Bool := c == ' ' || c == '\n' || c == '\t' || c == '\r'

/-- A character of a name (of those names that occur). -/
def isNameChar (c : Char) : Bool := c.isAlphanum || c == '_' || c == '-'

/-- A complete element. -/
def add (e : Element) (r : Reader) : Reader :=
  match r.stack with
  | [] => { r with mode := .content, done := r.done ++ [e] }
  | f :: fs => { r with mode := .content, stack := { f with children := f.children ++ [e] } :: fs }

/-- Reads a character. -/
def step (r : Reader) (c : Char) : Option Reader :=
  match r.mode with
  | .content => if c == '<' then some { r with mode := .opened } else if isBlank c then some r else none
  | .opened =>
    if c == '?' then some { r with mode := .declaration false }
    else if c == '/' then some { r with mode := .closing [] }
    else if isNameChar c then some { r with mode := .name [c] } else none
  | .declaration mark =>
    if mark && c == '>' then some { r with mode := .content } else some { r with mode := .declaration (c == '?') }
  | .name n =>
    if isNameChar c then some { r with mode := .name (n ++ [c]) }
    else if isBlank c then some { r with mode := .inside n [] }
    else if c == '/' then some { r with mode := .slash n [] }
    else if c == '>' then some { r with mode := .content, stack := ⟨n, [], []⟩ :: r.stack } else none
  | .inside n as =>
    if isNameChar c then some { r with mode := .key n as [c] }
    else if isBlank c then some r
    else if c == '/' then some { r with mode := .slash n as }
    else if c == '>' then some { r with mode := .content, stack := ⟨n, as, []⟩ :: r.stack } else none
  | .key n as k =>
    if isNameChar c then some { r with mode := .key n as (k ++ [c]) }
    else if c == '=' then some { r with mode := .equals n as k } else none
  | .equals n as k => if c == '"' then some { r with mode := .value n as k [] } else none
  | .value n as k v =>
    if c == '"' then (if as.any (fun a => a.1 == k) then none else some { r with mode := .inside n (as ++ [(k, v)]) })
    else if c == '<' || c == '&' then none
    else some { r with mode := .value n as k (v ++ [if isBlank c then ' ' else c]) }
  | .slash n as => if c == '>' then some (add ⟨n, as, []⟩ r) else none
  | .closing n =>
    if isNameChar c then some { r with mode := .closing (n ++ [c]) }
    else if c == '>' then
      match r.stack with
      | f :: fs => if f.name == n then some (add ⟨f.name, f.attributes, f.children⟩ { r with stack := fs }) else none
      | [] => none
    else none

/-- Reads a text. -/
def steps (r : Reader) : List Char → Option Reader
  | [] => some r
  | c :: cs => (step r c).bind fun r => steps r cs

/-- Reads a document: one element, nothing left open. -/
def read (text : List Char) : Option Element :=
  match steps ⟨.content, [], []⟩ text with
  | some ⟨.content, [], [e]⟩ => some e
  | _ => none

/-- A text that can be the value of an attribute as it is. -/
def Plain (v : List Char) : Prop := ∀ c ∈ v, c ≠ '"' ∧ c ≠ '<' ∧ c ≠ '&' ∧ (isBlank c = true → c = ' ')

instance (v : List Char) : Decidable (Plain v) := by unfold Plain; infer_instance

end Maliput.Xml
