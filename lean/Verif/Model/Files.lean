import Verif.Model.Basic

set_option autoImplicit false

/-!
# Paths, directories and files

`src/maliput/common/filesystem.cc` and `src/maliput/utility/file_utils.cc`, on a model of the file system of the operating
system. A `std::string` is a list of characters. Symbolic links and the names `.` and `..` are not modelled: a location is the
list of the names from the root on.
-/
namespace Maliput.Files

/-- What a location holds (src/maliput/common/filesystem.cc:106-123). -/
inductive Kind
  | file
  | dir
deriving DecidableEq, Repr

/-- The text between the occurrences of a character. -/
def split (sep : Char) : List Char → List (List Char)
  | [] => [[]]
  | c :: l =>
    if c = sep then [] :: split sep l
    else match split sep l with
      | [] => [[c]]
      | w :: ws => (c :: w) :: ws

/-- The names in a path. Several slashes count as one. -/
def names (p : List Char) : List (List Char) := (split '/' p).filter (· ≠ [])

/-- The operating system: what is at each location, the current directory, and where the process is allowed to make
directories. -/
structure FileSystem where
  kind : List (List Char) → Option Kind
  cwd : List (List Char)
  allowed : List (List Char) → Bool

/-- The location from which a path is resolved. -/
def base (s : FileSystem) (p : List Char) : List (List Char) := if p.head? = some '/' then [] else s.cwd

/-- The location a path names; the empty path names none. -/
def locate (s : FileSystem) (p : List Char) : Option (List (List Char)) :=
  if p = [] then none else some (base s p ++ names p)

/-- `stat`: what a path names. A file cannot be named with a slash after its name
(src/maliput/common/filesystem.cc:106-132). -/
def stat (s : FileSystem) (p : List Char) : Option Kind :=
  match locate s p with
  | none => none
  | some l =>
    match s.kind l with
    | some .file => if p.getLast? = some '/' then none else some .file
    | k => k

/-- `Path::exists` (src/maliput/common/filesystem.cc:129-132). -/
def exists' (s : FileSystem) (p : List Char) : Bool := (stat s p).isSome

/-- `Path::is_file` (src/maliput/common/filesystem.cc:106-114). -/
def isFile (s : FileSystem) (p : List Char) : Bool := exists' s p && stat s p == some .file

/-- `Path::is_directory` (src/maliput/common/filesystem.cc:116-123). -/
def isDirectory (s : FileSystem) (p : List Char) : Bool := exists' s p && stat s p == some .dir

/-- `Path::is_absolute` (src/maliput/common/filesystem.cc:125-127). -/
def isAbsolute (s : FileSystem) (p : List Char) : Bool := exists' s p && p != [] && p.head? == some '/'

/-- What is at a location becomes something else. -/
def put (s : FileSystem) (l : List (List Char)) (k : Option Kind) : FileSystem :=
  { s with kind := fun l' => if l' = l then k else s.kind l' }

/-- `Filesystem::create_directory`, that is `mkdir`: makes a directory in an existing one when nothing is there and the process
is allowed to (src/maliput/common/filesystem.cc:152-154). -/
def createDirectory (s : FileSystem) (p : List Char) : FileSystem × Bool :=
  match locate s p with
  | none => (s, false)
  | some l =>
    if s.kind l = none ∧ s.kind l.dropLast = some .dir ∧ s.allowed l then (put s l (some .dir), true) else (s, false)

/-- The directory at a location has no entries. -/
def Empty (s : FileSystem) (l : List (List Char)) : Prop := ∀ n, s.kind (l ++ [n]) = none

/-- `Filesystem::remove_directory`; `rmdir` removes empty directories (src/maliput/common/filesystem.cc:156-158). The root, the
current directory and rights are not modelled. -/
noncomputable def removeDirectory (s : FileSystem) (p : List Char) : FileSystem × Bool :=
  open Classical in
  match locate s p with
  | none => (s, false)
  | some l => if isDirectory s p ∧ Empty s l then (put s l none, true) else (s, false)

/-- `Filesystem::remove_file` (src/maliput/common/filesystem.cc:160-162). Rights are not modelled. -/
def removeFile (s : FileSystem) (p : List Char) : FileSystem × Bool :=
  match locate s p with
  | none => (s, false)
  | some l => if isFile s p then (put s l none, true) else (s, false)

/-- The positions at which the loop of `create_directory_recursive` stops (src/maliput/common/filesystem.cc:187-202). -/
def stops (p : List Char) : List Nat := (List.range p.length).filter fun i => decide (2 ≤ i) && (p[i]? == some '/')

/-- The loop of `create_directory_recursive` (src/maliput/common/filesystem.cc:193-203). -/
def createLoop (p : List Char) : List Nat → FileSystem → FileSystem × Bool
  | [], s => createDirectory s p
  | pos :: rest, s =>
    if exists' s (p.take pos) then createLoop p rest s
    else match createDirectory s (p.take pos) with
      | (s', true) => createLoop p rest s'
      | (s', false) => (s', false)

/-- `Filesystem::create_directory_recursive` (src/maliput/common/filesystem.cc:186-204). -/
def createRecursive (s : FileSystem) (p : List Char) : FileSystem × Bool :=
  if p = [] then (s, false) else createLoop p (stops p) s

/-- `Path::normalize`; `back()` of an empty string is undefined (src/maliput/common/filesystem.cc:146-150). -/
def normalize (p : List Char) : Except Err (List Char) :=
  if p = [] then .error .ub
  else if p.getLast? = some '/' ∧ 1 < p.length then .ok (p.take (p.length - 1)) else .ok p

/-- `Path::set_path` (src/maliput/common/filesystem.cc:84-87). -/
def setPath (p : List Char) : Except Err (List Char) := normalize p

/-- `Path::append` (src/maliput/common/filesystem.cc:134-144). -/
def append (p q : List Char) : Except Err (List Char) := normalize (if q.head? = some '/' then q else p ++ '/' :: q)

/-- What reading a file to its end gives: its bytes, and whether the end is reached or reading fails, as it does for a
directory (src/maliput/common/filesystem.cc:175-179). -/
structure Stream where
  bytes : List Char
  fails : Bool

/-- The loop of `read_as_string`, for at most `n` rounds: what is read when it ends, nothing when it still runs. After a
failure the stream gives nothing and is not at its end (src/maliput/common/filesystem.cc:175-179). -/
def readLoop (fails : Bool) : Nat → List Char → Option (List Char)
  | 0, _ => none
  | n + 1, [] => if fails then (readLoop fails n []).map ('ÿ' :: ·) else some []
  | n + 1, c :: l => (readLoop fails n l).map (c :: ·)

/-- `Filesystem::read_as_string`, for at most `n` rounds of its loop: the string after the call and what is returned
(src/maliput/common/filesystem.cc:171-184). A file which cannot be opened has no stream. -/
def readAsString (n : Nat) (file : Option Stream) (readTo : List Char) : Option (List Char × Bool) :=
  match file with
  | none => some (readTo, false)
  | some f => (readLoop f.fails n f.bytes).map (·, true)

/-- `std::getline` with `':'` until it fails: a piece of no characters at the end of the text is not read
(src/maliput/utility/file_utils.cc:76-78). -/
def getlines (text : List Char) : List (List Char) :=
  match (split ':' text).getLast? with
  | some [] => (split ':' text).dropLast
  | _ => split ':' text

/-- `GetAllPathsFromEnvironment`, for the value of the variable (src/maliput/utility/file_utils.cc:66-80). -/
def pathsFromEnvironment (env : Option (List Char)) : List (List Char) :=
  match env with
  | none => []
  | some text => getlines text

/-- `GetSuffixFromPath` (src/maliput/utility/file_utils.cc:42-45). -/
def suffixOf (p : List Char) : List Char := (split '.' p).getLast?.getD p

mutual
/-- What is on disk below a path: a file, or a directory with entries in the order in which the system lists them
(src/maliput/utility/file_utils.cc:50-51). -/
inductive Tree
  | file
  | dir (entries : Forest)
/-- The entries of a directory (src/maliput/utility/file_utils.cc:50). -/
inductive Forest
  | nil
  | cons (name : List Char) (tree : Tree) (rest : Forest)
end

/-- The path of an entry of a directory (src/maliput/utility/file_utils.cc:50, 52, 57, 61). -/
def join (p name : List Char) : List Char := if p.getLast? = some '/' then p ++ name else p ++ '/' :: name

/-- Whether a file is taken (src/maliput/utility/file_utils.cc:56-60). -/
def taken (suffix : Option (List Char)) (p : List Char) : Bool :=
  match suffix with
  | none => true
  | some x => x == [] || suffixOf p == x

mutual
/-- One entry in the loop of `GetAllFilePathsFromDirectory` (src/maliput/utility/file_utils.cc:51-61). -/
def pathsOfEntry (suffix : Option (List Char)) (p : List Char) : Tree → List (List Char)
  | .dir entries => pathsOfEntries suffix p entries
  | .file => if taken suffix p then [p] else []
/-- The loop of `GetAllFilePathsFromDirectory` (src/maliput/utility/file_utils.cc:50-62). -/
def pathsOfEntries (suffix : Option (List Char)) (p : List Char) : Forest → List (List Char)
  | .nil => []
  | .cons name tree rest => pathsOfEntry suffix (join p name) tree ++ pathsOfEntries suffix p rest
end

/-- `GetAllFilePathsFromDirectory`: a path which is not that of a directory throws a `filesystem_error`
(src/maliput/utility/file_utils.cc:47-64). -/
def allFilePaths (disk : List Char → Option Tree) (p : List Char) (suffix : Option (List Char)) : Except Err (List (List Char)) :=
  match disk p with
  | some (.dir entries) => .ok (pathsOfEntries suffix p entries)
  | _ => .error .throws

end Maliput.Files
