import Verif.Model.GenerateDot
import Verif.Model.Files

set_option autoImplicit false

/-!
Specification: what somebody reads in a graph in the DOT language of this form.  `Files.split` gives the pieces of a text between
the occurrences of a character.
-/
namespace Maliput.Dot.Spec

/-- What is drawn of an edge: its nodes, its label, and whether it is red. -/
structure Drawn where
  nodeA : List Char
  nodeB : List Char
  label : List Char
  red : Bool
  deriving DecidableEq, Repr

/-- Reads `a -- b [ label = "text" ];` or `a -- b [ label = "text" color = "red" ];`. -/
def readLine (l : List Char) : Option Drawn :=
  match Files.split '"' l with
  | [start, label, rest] =>
    match Files.split ' ' start, decide (rest = " ];".toList) with
    | [a, ['-', '-'], b, ['['], ['l', 'a', 'b', 'e', 'l'], ['='], []], true => some ⟨a, b, label, false⟩
    | _, _ => none
  | [start, label, color, name, rest] =>
    match Files.split ' ' start, decide (color = " color = ".toList ∧ name = "red".toList ∧ rest = " ];".toList) with
    | [a, ['-', '-'], b, ['['], ['l', 'a', 'b', 'e', 'l'], ['='], []], true => some ⟨a, b, label, true⟩
    | _, _ => none
  | _ => none

/-- Reads a whole text: a first line `graph {`, a line for each edge, and a last line `}`. -/
def readGraph (text : List Char) : Option (List Drawn) :=
  match Files.split '\n' text with
  | first :: rest =>
    match rest.reverse with
    | [] :: last :: edges => if first = "graph {".toList ∧ last = ['}'] then edges.reverse.mapM readLine else none
    | _ => none
  | [] => none

/-- The ids can be written: those of the nodes have no space, quote or end of line, that of the segment no quote or end of line. -/
def Writable (e : Edge) : Prop :=
  (∀ c ∈ e.nodeA ++ e.nodeB, c ≠ ' ' ∧ c ≠ '"' ∧ c ≠ '\n') ∧ ∀ c ∈ e.label, c ≠ '"' ∧ c ≠ '\n'

instance (e : Edge) : Decidable (Writable e) := by unfold Writable; infer_instance

end Maliput.Dot.Spec
