import Verif.Model.Files

set_option autoImplicit false

/-!
# What making directories is to do

`mkdir -p`: every directory on the way to a location, and nothing else.
-/
namespace Maliput.Files.Spec

/-- What is in a file system is in directories, and the root and the current directory are directories. -/
structure WellFormed (s : FileSystem) : Prop where
  root : s.kind [] = some .dir
  cwd : s.kind s.cwd = some .dir
  parent : ∀ l n, s.kind (l ++ [n]) ≠ none → s.kind l = some .dir

open Classical in
/-- The file system after `mkdir -p`: all that is missing on the way to the location are directories now. -/
noncomputable def mkdirP (s : FileSystem) (l : List (List Char)) : FileSystem :=
  { s with kind := fun l' => if l' <+: l ∧ s.kind l' = none then some .dir else s.kind l' }

/-- `mkdir -p` can succeed: no file is on the way, and the missing directories may be made. -/
def Possible (s : FileSystem) (l : List (List Char)) : Prop :=
  ∀ l', l' <+: l → s.kind l' ≠ some .file ∧ (s.kind l' = none → s.allowed l' = true)

/-- Only directories on the way to a location were made: from `s` to `s'`, nothing was changed or removed, nothing made
elsewhere. -/
def OnlyMade (s s' : FileSystem) (l : List (List Char)) : Prop :=
  s'.cwd = s.cwd ∧ s'.allowed = s.allowed ∧
  ∀ l', s'.kind l' = s.kind l' ∨ s.kind l' = none ∧ s'.kind l' = some .dir ∧ l' <+: l ∧ s.allowed l' = true

mutual
/-- A chain of names leads from an entry down to a file. -/
inductive FileAt : Tree → List (List Char) → Prop
  | here : FileAt .file []
  | inside {entries : Forest} {n : List Char} {ns : List (List Char)} (h : FileIn entries n ns) : FileAt (.dir entries) (n :: ns)
/-- A chain of names leads from the entries of a directory down to a file. -/
inductive FileIn : Forest → List Char → List (List Char) → Prop
  | head {n : List Char} {t : Tree} {rest : Forest} {ns : List (List Char)} (h : FileAt t ns) : FileIn (.cons n t rest) n ns
  | tail {n m : List Char} {t : Tree} {rest : Forest} {ns : List (List Char)} (h : FileIn rest n ns) :
    FileIn (.cons m t rest) n ns
end

/-- The names of the entries of a directory. -/
def entryNames : Forest → List (List Char)
  | .nil => []
  | .cons n _ rest => n :: entryNames rest

mutual
/-- In all directories the names are distinct, and none is empty or has a slash. -/
def Named : Tree → Prop
  | .file => True
  | .dir entries => NamedIn entries
/-- In these entries and all directories below, the names are distinct, and none is empty or has a slash. -/
def NamedIn : Forest → Prop
  | .nil => True
  | .cons n t rest => n ≠ [] ∧ '/' ∉ n ∧ n ∉ entryNames rest ∧ Named t ∧ NamedIn rest
end

/-- The path of what a chain of names below a directory leads to. -/
def pathTo (p : List Char) (ns : List (List Char)) : List Char := ns.foldl join p

/-- Paths with colons between them. -/
def colons : List (List Char) → List Char
  | [] => []
  | [p] => p
  | p :: ps => p ++ ':' :: colons ps

end Maliput.Files.Spec
