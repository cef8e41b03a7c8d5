import Verif.Model.DouglasPeucker
import Verif.Model.Graph
import Verif.Model.Mesh

set_option autoImplicit false

/-!
Model of src/maliput/utility/mesh_simplification.cc.  A `FaceEdgeIndex` or `FaceVertexIndex` is a pair of numbers; the
invalid index (-1, -1) is `none`.  A `std::set<int>` is the increasing list of its elements.  The adjacency only depends
on the vertex indices of the faces: the functions about it take the list of these lists.
-/
namespace Maliput.MeshSimplification

open Maliput.RouteGraph (Stop lift)
open Maliput.Mesh (GeoMesh)

/-- `FaceEdgeIndex`, include/maliput/utility/mesh_simplification.h:96-104, if it is valid: face and edge. -/
abbrev FaceEdge := Nat × Nat

/-- `FaceAdjacencyMap`, include/maliput/utility/mesh_simplification.h:130. -/
abbrev Adjacency := Map Nat (List (Option FaceEdge))

/-- The loop over the vertices of the face `fi`, src/maliput/utility/mesh_simplification.cc:59-65: the directed edges and
their indices. -/
def faceEdges (fi : Nat) (face : List Nat) : List ((Nat × Nat) × FaceEdge) :=
  (List.range face.length).map fun i => ((face.getD i 0, face.getD ((i + 1) % face.length) 0), (fi, i))

/-- The directed edges of all the faces with their indices, in the order of the loops,
src/maliput/utility/mesh_simplification.cc:55-66. -/
def allEdges (faces : List (List Nat)) : List ((Nat × Nat) × FaceEdge) :=
  (List.range faces.length).flatMap fun fi => faceEdges fi (faces.getD fi [])

/-- The body of the inner loop, src/maliput/utility/mesh_simplification.cc:63-64. -/
def addEdge (m : Map (Nat × Nat) FaceEdge) (e : (Nat × Nat) × FaceEdge) : Except Err (Map (Nat × Nat) FaceEdge) :=
  if m.has e.1 then .error .aborts else .ok (m.set e.1 e.2)

/-- `ComputeInverseFaceEdgeMap`, src/maliput/utility/mesh_simplification.cc:52-68. -/
def inverseFaceEdges (faces : List (List Nat)) : Except Err (Map (Nat × Nat) FaceEdge) :=
  (allEdges faces).foldlM addEdge .empty

/-- The body of the loop of `ComputeFaceAdjacencyMap`, src/maliput/utility/mesh_simplification.cc:74-85. -/
def addAdjacent (faces : List (List Nat)) (inv : Map (Nat × Nat) FaceEdge) (m : Adjacency)
    (entry : (Nat × Nat) × FaceEdge) : Adjacency :=
  let f := entry.2.1
  let m1 := if m.has f then m else m.set f (List.replicate (faces.getD f []).length none)
  match inv.get? (entry.1.2, entry.1.1) with
  | some other => m1.set f (((m1.get? f).getD []).set entry.2.2 (some other))
  | none => m1

/-- `ComputeFaceAdjacencyMap`, src/maliput/utility/mesh_simplification.cc:70-87.  The order in which the entries of the
unordered map are visited is that of their insertion. -/
def faceAdjacency (faces : List (List Nat)) : Except Err Adjacency := do
  let inv ← inverseFaceEdges faces
  return inv.entries.foldl (addAdjacent faces inv) .empty

/-- The answers of the checks of planes for a mesh and a tolerance: whether the tolerance is positive, whether the
vertices of a face after its first one lie on the plane of the first one (`IsMeshFacePlanar` without its checks), and
whether those of another face do (`IsMeshFaceCoplanarWithPlane`). -/
structure Planes where
  tolerancePositive : Bool
  planar : Nat → Bool
  coplanar : Nat → Nat → Bool

/-- `std::set::insert`. -/
def insertSet (x : Nat) : List Nat → List Nat
  | [] => [x]
  | y :: l => if x < y then x :: y :: l else if x = y then y :: l else y :: insertSet x l

/-- The loop over the edges of a face, src/maliput/utility/mesh_simplification.cc:134-147: the sets of the mergeable faces
and the queue afterwards. -/
def collect (coplanar : Nat → Bool) (visited : List Nat) :
    List (Option FaceEdge) → List Nat → List Nat → List Nat × List Nat
  | [], merge, queue => (merge, queue)
  | none :: rest, merge, queue => collect coplanar visited rest merge queue
  | some (j, _) :: rest, merge, queue =>
    if j ∈ merge then collect coplanar visited rest merge queue
    else if j ∈ visited then collect coplanar visited rest merge queue
    else if coplanar j then collect coplanar visited rest (insertSet j merge) (queue ++ [j])
    else collect coplanar visited rest merge queue

/-- The loop over the queue, src/maliput/utility/mesh_simplification.cc:130-150: the mergeable and the visited faces
afterwards.  The number bounds the iterations. -/
def traverse (adj : Adjacency) (coplanar : Nat → Bool) :
    Nat → List Nat → List Nat → List Nat → Except Stop (List Nat × List Nat)
  | _, [], merge, visited => .ok (merge, visited)
  | 0, _ :: _, _, _ => .error .depth
  | n + 1, f :: queue, merge, visited => do
    let row ← lift (adj.at! f)
    let r := collect coplanar visited row merge queue
    traverse adj coplanar n r.2 r.1 (insertSet f visited)

/-- `MALIPUT_DEMAND(c)`. -/
def demand (c : Bool) : Except Err Unit := if c then .ok () else .error .aborts

/-- `AggregateAdjacentCoplanarMeshFaces`, src/maliput/utility/mesh_simplification.cc:114-155, with `IsMeshFacePlanar`,
src/maliput/utility/mesh_simplification.cc:103-112 (the pointers are not null). -/
def aggregate (faces : List (List Nat)) (planes : Planes) (adj : Adjacency) (start : Nat) (visited : List Nat) :
    Except Stop (List Nat × List Nat) := do
  lift (demand (decide (start < faces.length)))
  lift (demand planes.tolerancePositive)
  lift (demand (decide (start ∉ visited)))
  lift (demand (decide ((faces.getD start []).length ≥ 3)))
  if planes.planar start then traverse adj (planes.coplanar start) (faces.length + 1) [start] [start] visited
  else return ([start], insertSet start visited)

/-- Whether the adjacent face of an edge is not in the region. -/
def isOuter (region : List Nat) : Option FaceEdge → Bool
  | none => true
  | some other => !region.contains other.1

/-- `FindOuterFaceEdgeIndex`, src/maliput/utility/mesh_simplification.cc:157-174, where `rest` are the faces that are
still to be searched. -/
def outerEdge (region : List Nat) (adj : Adjacency) : List Nat → Except Err (Option FaceEdge)
  | [] => .ok none
  | f :: rest => do
    let row ← adj.at! f
    match row.findIdx? (isOuter region) with
    | some i => return some (f, i)
    | none => outerEdge region adj rest

/-- The next edge of the same face, src/maliput/utility/mesh_simplification.cc:196-197. -/
def nextInFace (adj : Adjacency) (e : FaceEdge) : Except Err FaceEdge := do
  let row ← adj.at! e.1
  if row.length = 0 then .error .ub else return (e.1, (e.2 + 1) % row.length)

/-- The body of the loop, src/maliput/utility/mesh_simplification.cc:188-197: the next edge, and whether the edge is
part of the contour. -/
def contourStep (region : List Nat) (adj : Adjacency) (e : FaceEdge) : Except Err (FaceEdge × Bool) := do
  let row ← adj.at! e.1
  match row[e.2]? with
  | none => .error .ub
  | some none => do
    let e' ← nextInFace adj e
    return (e', true)
  | some (some other) =>
    if region.contains other.1 then do
      let e' ← nextInFace adj other
      return (e', false)
    else do
      let e' ← nextInFace adj e
      return (e', true)

/-- The loop, src/maliput/utility/mesh_simplification.cc:187-198.  The number bounds the iterations. -/
def contourLoop (region : List Nat) (adj : Adjacency) (first : FaceEdge) : Nat → FaceEdge → Except Stop (List FaceEdge)
  | 0, _ => .error .depth
  | n + 1, e => do
    let r ← lift (contourStep region adj e)
    if r.1 = first then return if r.2 then [e] else []
    else do
      let rest ← contourLoop region adj first n r.1
      return if r.2 then e :: rest else rest

/-- `ComputeMeshFacesContour`, src/maliput/utility/mesh_simplification.cc:176-200.  The bound of the loop is the number of
edges of all the faces. -/
def contour (region : List Nat) (adj : Adjacency) : Except Stop (List FaceEdge) := do
  let o ← lift (outerEdge region adj region)
  match o with
  | none => .error (.err .aborts)
  | some first => contourLoop region adj first ((adj.entries.map (·.2.length)).sum) first

variable {V N : Type} [DecidableEq V] [DecidableEq N]

/-- `MeshFaceVertexAt` and the vertex and normal it refers to, src/maliput/utility/mesh_simplification.cc:202-206, 236-237. -/
def vertexAt (m : GeoMesh V N) (e : FaceEdge) : Except Err (V × N) :=
  match m.faces[e.1]? with
  | none => .error .outOfRange
  | some face =>
    match face[e.2]? with
    | none => .error .outOfRange
    | some ij => m.deref ij

/-- `MergeMeshFaces`, src/maliput/utility/mesh_simplification.cc:226-240: the vertices and normals of the merged face.
`simp` is `SimplifyMeshFacesContour`. -/
def mergeFaces (m : GeoMesh V N) (simp : List FaceEdge → List FaceEdge) (group : List Nat) (adj : Adjacency) :
    Except Stop (List (V × N)) := do
  let c ← contour group adj
  (simp c).mapM fun e => lift (vertexAt m e)

/-- The vertex indices of the faces of a mesh. -/
def vertexIndices (m : GeoMesh V N) : List (List Nat) := m.faces.map (·.map (·.1))

/-- The loop of `SimplifyMeshFaces`, src/maliput/utility/mesh_simplification.cc:247-256: the visited faces and the output
mesh afterwards, and the sets of faces that were merged. -/
def simplifyLoop (m : GeoMesh V N) (planes : Planes) (simp : List FaceEdge → List FaceEdge) (adj : Adjacency) :
    List Nat → List Nat → GeoMesh V N → Except Stop (List (List Nat) × GeoMesh V N)
  | [], _, out => .ok ([], out)
  | fi :: rest, visited, out =>
    if fi ∈ visited then simplifyLoop m planes simp adj rest visited out
    else do
      let r ← aggregate (vertexIndices m) planes adj fi visited
      let face ← mergeFaces m simp r.1 adj
      let s ← simplifyLoop m planes simp adj rest r.2 (out.addFace face)
      return (r.1 :: s.1, s.2)

/-- `SimplifyMeshFaces`, src/maliput/utility/mesh_simplification.cc:242-258: the sets of faces that were merged and the
output mesh. -/
def simplifyMesh (m : GeoMesh V N) (planes : Planes) (simp : List FaceEdge → List FaceEdge) :
    Except Stop (List (List Nat) × GeoMesh V N) := do
  let adj ← lift (faceAdjacency (vertexIndices m))
  simplifyLoop m planes simp adj (List.range m.faces.length) [] .empty

open Maliput.Linear Classical

/-- The condition of `DoMeshVerticesLieOnPlane`, include/maliput/utility/mesh_simplification.h:168-173, for a vertex and
its normal.  The function aborts if the normals of the plane and of the vertex are both null vectors; here the answer
is then negative. -/
noncomputable def onPlane (n p : V3) (tolerance : ℝ) (vn : V3 × V3) : Bool :=
  match vn.2.normalized with
  | none => false
  | some u =>
    if |n.dot u| = 0 then false
    else
      match distanceToAPlane n p vn.1 with
      | .error _ => false
      | .ok d => decide (d / |n.dot u| < tolerance)

/-- The vertices of a face with their normals, `GetMeshFaceVertexPosition` and `GetMeshFaceVertexNormal`,
src/maliput/utility/mesh_simplification.cc:89-95: those that do not exist are left out. -/
def faceVertices (m : GeoMesh V N) (f : Nat) : List (V × N) :=
  (m.faces.getD f []).filterMap fun ij => (m.deref ij).toOption

/-- The answers for a mesh and a tolerance, `IsMeshFaceCoplanarWithPlane` and `IsMeshFacePlanar`,
src/maliput/utility/mesh_simplification.cc:97-112: the plane of a face is that of its first vertex and normal. -/
noncomputable def planesOf (m : GeoMesh V3 V3) (tolerance : ℝ) : Planes where
  tolerancePositive := decide (0 < tolerance)
  planar f :=
    match faceVertices m f with
    | [] => false
    | vn :: rest => rest.all (onPlane vn.2 vn.1 tolerance)
  coplanar f g :=
    match faceVertices m f with
    | [] => false
    | vn :: _ => (faceVertices m g).all (onPlane vn.2 vn.1 tolerance)

/-- The positions that `SimplifyMeshFacesContour` uses, src/maliput/utility/mesh_simplification.cc:216-218. -/
noncomputable def position (m : GeoMesh V3 V3) (e : FaceEdge) : V3 :=
  match vertexAt m e with
  | .ok vn => vn.1
  | .error _ => ⟨0, 0, 0⟩

/-- `SimplifyMeshFaces`, src/maliput/utility/mesh_simplification.cc:242-258, with its tolerance. -/
noncomputable def simplifyMeshFaces (m : GeoMesh V3 V3) (tolerance : ℝ) :
    Except Stop (List (List Nat) × GeoMesh V3 V3) :=
  simplifyMesh m (planesOf m tolerance) (DouglasPeucker.simplifyContour (position m) tolerance)

end Maliput.MeshSimplification
