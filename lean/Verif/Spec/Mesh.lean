import Verif.Model.Mesh

set_option autoImplicit false

/-! Specification of meshes and of OBJ files. -/
namespace Maliput.Mesh.Spec

variable {V N : Type} [DecidableEq V] [DecidableEq N]

/-- `m` is a mesh after some history of calls of `PushFace` and `AddFacesFrom` on new meshes, where a face has
as many normals as vertices; `fs` are the faces it was given, each a list of vertices with their normals. -/
inductive Built : GeoMesh V N → List (List (V × N)) → Prop
  | new : Built .empty []
  | push {m m' fs} (f : GeoFace V N) (h : Built m fs) (hf : f.vertices.length = f.normals.length)
      (hm : m.pushFace f = .ok m') : Built m' (fs ++ [f.vertices.zip f.normals])
  | add {m m' o fs fo} (h : Built m fs) (ho : Built o fo) (hm : m.addFacesFrom o = .ok m') : Built m' (fs ++ fo)

/-- The elements of a list in the order of their first occurrences. -/
def firsts {α : Type} [DecidableEq α] (l : List α) : List α :=
  l.foldl (fun acc x => if x ∈ acc then acc else acc ++ [x]) []

/-- The `v` lines of an OBJ file. -/
def vLines (out : List (Line V N)) : List V := out.filterMap fun l => match l with | .v x => some x | _ => none

/-- The `vn` lines of an OBJ file. -/
def vnLines (out : List (Line V N)) : List N := out.filterMap fun l => match l with | .vn x => some x | _ => none

/-- The `f` lines of an OBJ file. -/
def fLines (out : List (Line V N)) : List (List (Nat × Nat)) :=
  out.filterMap fun l => match l with | .f x => some x | _ => none

/-- What a one-based index refers to. -/
def oneBased {α : Type} (l : List α) (i : Nat) : Option α := if i = 0 then none else l[i - 1]?

/-- The faces of an OBJ file: indices count the `v` and `vn` lines of the whole file from one. -/
def read (out : List (Line V N)) : List (List (Option V × Option N)) :=
  (fLines out).map (·.map fun ij => (oneBased (vLines out) ij.1, oneBased (vnLines out) ij.2))

end Maliput.Mesh.Spec
