import Verif.Model.Map

set_option autoImplicit false

/-!
Model of include/maliput/utility/mesh.h: `UniqueIndexer`, `GeoFace`, `GeoMesh` and `EmitObj`.  Vertices and
normals are of any types with decidable equality, which stands for the equivalences `GeoVertex::Equiv` and
`GeoNormal::Equiv`: positive and negative zero are the same coordinate, and coordinates are not NaN.  The
vector of pointers into the map is the list of the keys they point to.
-/
namespace Maliput.Mesh

/-- `UniqueIndexer`, include/maliput/utility/mesh.h:57-85. -/
structure Indexer (T : Type) where
  map : Map T Nat
  vector : List T

variable {T V N : Type} [DecidableEq T] [DecidableEq V] [DecidableEq N]

/-- A new `UniqueIndexer`, include/maliput/utility/mesh.h:61. -/
def Indexer.empty : Indexer T := ⟨.empty, []⟩

/-- `UniqueIndexer::push_back`, include/maliput/utility/mesh.h:66-75: the indexer afterwards and the index. -/
def Indexer.pushBack (x : Indexer T) (thing : T) : Indexer T × Nat :=
  match x.map.get? thing with
  | some i => (x, i)
  | none => (⟨(x.map.emplace thing x.vector.length).1, x.vector ++ [thing]⟩, x.vector.length)

/-- `GeoFace`, include/maliput/utility/mesh.h:148-169. -/
structure GeoFace (V N : Type) where
  vertices : List V
  normals : List N
  deriving DecidableEq

/-- The constructor of `GeoFace`, include/maliput/utility/mesh.h:152-155. -/
def GeoFace.make (vs : List V) (ns : List N) : Except Err (GeoFace V N) :=
  if vs.length = ns.length then .ok ⟨vs, ns⟩ else .error .aborts

/-- `GeoFace::push_vn`, include/maliput/utility/mesh.h:157-160. -/
def GeoFace.pushVn (f : GeoFace V N) (v : V) (n : N) : GeoFace V N := ⟨f.vertices ++ [v], f.normals ++ [n]⟩

/-- `IndexFace`, include/maliput/utility/mesh.h:174-189: the pairs of a vertex index and a normal index. -/
abbrev IndexFace := List (Nat × Nat)

/-- The members of `GeoMesh`, include/maliput/utility/mesh.h:285-287. -/
structure GeoMesh (V N : Type) where
  vertices : Indexer V
  normals : Indexer N
  faces : List IndexFace

/-- A new `GeoMesh`, include/maliput/utility/mesh.h:194. -/
def GeoMesh.empty : GeoMesh V N := ⟨.empty, .empty, []⟩

/-- The loop over the vertices of a face, include/maliput/utility/mesh.h:198-202 and 213-218, that gets the
vertices and normals of `l`. -/
def pushVertices (vs : Indexer V) (ns : Indexer N) : List (V × N) → Indexer V × Indexer N × IndexFace
  | [] => (vs, ns, [])
  | (v, n) :: rest =>
    let a := vs.pushBack v
    let b := ns.pushBack n
    let r := pushVertices a.1 b.1 rest
    (r.1, r.2.1, (a.2, b.2) :: r.2.2)

/-- The loop body's vertices and normals, include/maliput/utility/mesh.h:198-202: `operator[]` of the normals
is undefined if there are too few. -/
def GeoFace.pairs (f : GeoFace V N) : Except Err (List (V × N)) :=
  if f.vertices.length ≤ f.normals.length then .ok (f.vertices.zip f.normals) else .error .ub

/-- One more face with the given vertices and normals. -/
def GeoMesh.addFace (m : GeoMesh V N) (l : List (V × N)) : GeoMesh V N :=
  let r := pushVertices m.vertices m.normals l
  ⟨r.1, r.2.1, m.faces ++ [r.2.2]⟩

/-- `GeoMesh::PushFace`, include/maliput/utility/mesh.h:196-204. -/
def GeoMesh.pushFace (m : GeoMesh V N) (f : GeoFace V N) : Except Err (GeoMesh V N) := do
  let l ← f.pairs
  return m.addFace l

/-- `*other_vertices[i]`, `*other_normals[j]`, include/maliput/utility/mesh.h:215-216. -/
def GeoMesh.deref (m : GeoMesh V N) (ij : Nat × Nat) : Except Err (V × N) :=
  match m.vertices.vector[ij.1]?, m.normals.vector[ij.2]? with
  | some v, some n => .ok (v, n)
  | _, _ => .error .ub

/-- `GeoMesh::AddFacesFrom`, include/maliput/utility/mesh.h:206-221, for another mesh object. -/
def GeoMesh.addFacesFrom (m other : GeoMesh V N) : Except Err (GeoMesh V N) :=
  other.faces.foldlM (fun m f => do
    let l ← f.mapM other.deref
    return m.addFace l) m

/-- A line that `EmitObj` writes; coordinates are as they are before formatting. -/
inductive Line (V N : Type) where
  | v (x : V)
  | vn (n : N)
  | f (ids : List (Nat × Nat))
  | other (s : String)
  deriving DecidableEq

/-- `GeoMesh::EmitObj`, include/maliput/utility/mesh.h:236-271: the lines and the new offsets. -/
def GeoMesh.emitObj (m : GeoMesh V N) (material : String) (vo no : Nat) : List (Line V N) × Nat × Nat :=
  if m.faces.isEmpty then ([], vo, no)
  else
    ([.other "# Vertices"] ++ m.vertices.vector.map .v ++ [.other "# Normals"] ++ m.normals.vector.map .vn ++
      [.other "", .other "# Faces"] ++ (if material = "" then [] else [.other ("usemtl " ++ material)]) ++
      m.faces.map (fun f => .f (f.map fun ij => (ij.1 + 1 + vo, ij.2 + 1 + no))),
     vo + m.vertices.vector.length, no + m.normals.vector.length)

/-- Several meshes with their materials, emitted one after the other with the offsets chained, as in
include/maliput/utility/mesh.h:230-235. -/
def emitAll (vo no : Nat) : List (GeoMesh V N × String) → List (Line V N)
  | [] => []
  | (m, material) :: rest =>
    let r := m.emitObj material vo no
    r.1 ++ emitAll r.2.1 r.2.2 rest

end Maliput.Mesh
