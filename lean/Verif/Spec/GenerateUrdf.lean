import Verif.Spec.Xml

set_option autoImplicit false

/-!
Specification: what a reader of URDF sees in a document: a robot with links and joints; meshes are files, named relative to the
directory of the document.
-/
namespace Maliput.Urdf.Spec

open Maliput.Xml (Element)

/-- A link with the files of its visible meshes. -/
structure Link where
  name : List Char
  meshes : List (List Char)
  deriving DecidableEq

/-- A joint between two links. -/
structure Joint where
  parent : List Char
  child : List Char
  deriving DecidableEq

/-- A robot. -/
structure Robot where
  name : List Char
  links : List Link
  joints : List Joint
  deriving DecidableEq

/-- The name of an element. -/
def nameOf : Element → List Char
  | .mk n _ _ => n

/-- The elements in an element with a given name. -/
def inside (n : String) : Element → List Element
  | .mk _ _ cs => cs.filter fun c => nameOf c == n.toList

/-- The value of an attribute. -/
def attr (a : String) : Element → Option (List Char)
  | .mk _ as _ => as.lookup a.toList

/-- Something that is not moved: its origin, if it says so, is zero. -/
def unmoved (e : Element) : Bool :=
  (inside "origin" e).all fun o => attr "rpy" o == some "0 0 0".toList && attr "xyz" o == some "0 0 0".toList

/-- A mesh that is shown in its own size. -/
def readMesh (m : Element) : Option (List Char) := if attr "scale" m = some "1.0 1.0 1.0".toList then attr "filename" m else none

/-- A visible part that is not moved. -/
def readVisual (v : Element) : Option (List (List Char)) :=
  if unmoved v then ((inside "geometry" v).flatMap (inside "mesh")).mapM readMesh else none

/-- Reads a link. -/
def readLink (l : Element) : Option Link := do
  let name ← attr "name" l
  let meshes ← (inside "visual" l).mapM readVisual
  return ⟨name, meshes.flatten⟩

/-- Reads a joint that does not move its child at rest. -/
def readJoint (j : Element) : Option Joint :=
  match unmoved j, inside "parent" j, inside "child" j with
  | true, [p], [c] => do return ⟨← attr "link" p, ← attr "link" c⟩
  | _, _, _ => none

/-- Reads a robot. -/
def readRobot (e : Element) : Option Robot :=
  if nameOf e = "robot".toList then do
    return ⟨← attr "name" e, ← (inside "link" e).mapM readLink, ← (inside "joint" e).mapM readJoint⟩
  else none

/-- The directory of a file, with the slash. -/
def directoryOf (path : List Char) : List Char := (path.reverse.dropWhile fun c => c != '/').reverse

/-- The path of a file that is named in another one. -/
def resolve (path file : List Char) : List Char := directoryOf path ++ file

end Maliput.Urdf.Spec
