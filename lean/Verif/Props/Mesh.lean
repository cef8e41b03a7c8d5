import Verif.Lemmas.Mesh

set_option autoImplicit false

/-! Properties C33 and C34: indices of meshes and of OBJ files. -/
namespace Maliput.Props

open Maliput.Mesh
open Maliput.Mesh.Spec

variable {V N : Type} [DecidableEq V] [DecidableEq N]

/-- C33: after any history of `PushFace` and `AddFacesFrom`, decoding the indices of the faces gives the vertices and
normals of the faces that were pushed, in order. -/
theorem mesh_faces_decode {m : GeoMesh V N} {fs : List (List (V × N))} (h : Built m fs) :
    m.faces.map (·.map fun ij => (m.vertices.vector[ij.1]?, m.normals.vector[ij.2]?)) =
      fs.map (·.map fun vn => (some vn.1, some vn.2)) :=
  (holds_of_built h).faces

/-- C33: each vertex and each normal is stored once, and exactly those of the pushed faces are stored, in the order
of their first occurrences. -/
theorem mesh_stores_once {m : GeoMesh V N} {fs : List (List (V × N))} (h : Built m fs) :
    m.vertices.vector.Nodup ∧ m.normals.vector.Nodup ∧
    (∀ v, v ∈ m.vertices.vector ↔ ∃ f ∈ fs, ∃ n, (v, n) ∈ f) ∧
    (∀ n, n ∈ m.normals.vector ↔ ∃ f ∈ fs, ∃ v, (v, n) ∈ f) ∧
    m.vertices.vector = firsts (fs.flatMap (·.map (·.1))) ∧
    m.normals.vector = firsts (fs.flatMap (·.map (·.2))) := by
  have hh := holds_of_built h
  refine ⟨hh.vertices.1, hh.normals.1, fun v => ?_, fun n => ?_, hh.vs, hh.ns⟩
  · rw [hh.vs, firsts_eq, mem_foldl_put]; simp
  · rw [hh.ns, firsts_eq, mem_foldl_put]; simp

/-- C33: neither `PushFace`, for a face with as many normals as vertices, nor `AddFacesFrom` is ever undefined. -/
theorem mesh_operations_defined {m o : GeoMesh V N} {fs fo : List (List (V × N))} (h : Built m fs) (ho : Built o fo)
    (f : GeoFace V N) (hf : f.vertices.length = f.normals.length) :
    (∃ m', m.pushFace f = .ok m') ∧ ∃ m', m.addFacesFrom o = .ok m' := by
  refine ⟨⟨m.addFace (f.vertices.zip f.normals), by simp [GeoMesh.pushFace, pairs_ok hf]⟩, ?_⟩
  obtain ⟨m', h1, -⟩ := addFacesFrom_ok _ (holds_of_built h) (holds_of_built ho).faces
  exact ⟨m', h1⟩

omit [DecidableEq V] [DecidableEq N] in
/-- C33: `GeoFace` objects have as many normals as vertices: the constructor checks it and `push_vn` keeps it. -/
theorem face_lengths (vs : List V) (ns : List N) :
    (∀ f, GeoFace.make vs ns = .ok f → f.vertices = vs ∧ f.normals = ns ∧ f.vertices.length = f.normals.length) ∧
    (vs.length ≠ ns.length → GeoFace.make vs ns = .error .aborts) ∧
    ∀ (f : GeoFace V N) (v : V) (n : N), f.vertices.length = f.normals.length →
      (f.pushVn v n).vertices.length = (f.pushVn v n).normals.length ∧
      (f.pushVn v n).vertices.zip (f.pushVn v n).normals = f.vertices.zip f.normals ++ [(v, n)] := by
  refine ⟨?_, ?_, ?_⟩
  · intro f hf
    unfold GeoFace.make at hf
    split at hf
    · next h => cases hf; exact ⟨rfl, rfl, h⟩
    · cases hf
  · intro h; simp [GeoFace.make, h]
  · intro f v n h
    simp [GeoFace.pushVn, h, List.zip_append h]

/-- C34: when several meshes are written to one OBJ file with their offsets chained, reading the file, where the
indices of the faces count the `v` and `vn` lines of the whole file from one, gives the faces of all of the meshes
in order. -/
theorem obj_faces_read (ms : List (GeoMesh V N × String)) (fss : List (List (List (V × N))))
    (h : List.Forall₂ (fun m fs => Built m.1 fs) ms fss) :
    read (emitAll 0 0 ms) = fss.flatten.map (·.map fun vn => (some vn.1, some vn.2)) := by
  have := emitAll_ok ms [] [] fss (h.imp fun _ _ h => holds_of_built h)
  exact this

omit [DecidableEq V] [DecidableEq N] in
/-- C34: the `v` and `vn` lines are the vertices and normals of the meshes that have faces, and a mesh without faces
writes nothing and leaves the offsets as they are. -/
theorem obj_lines (ms : List (GeoMesh V N × String)) (vo no : Nat) :
    vLines (emitAll vo no ms) = (ms.filter fun m => !m.1.faces.isEmpty).flatMap (·.1.vertices.vector) ∧
    vnLines (emitAll vo no ms) = (ms.filter fun m => !m.1.faces.isEmpty).flatMap (·.1.normals.vector) ∧
    ∀ (m : GeoMesh V N) (material : String), m.faces = [] → m.emitObj material vo no = ([], vo, no) := by
  have split : ∀ x y : List (Line V N), vLines (x ++ y) = vLines x ++ vLines y ∧
      vnLines (x ++ y) = vnLines x ++ vnLines y := by
    intro x y; simp [vLines, vnLines]
  have empty : ∀ vo no (m : GeoMesh V N) (material : String), m.faces = [] → m.emitObj material vo no = ([], vo, no) := by
    intro vo no m material h; simp [GeoMesh.emitObj, h]
  refine ⟨?_, ?_, empty vo no⟩
  · induction ms generalizing vo no with
    | nil => rfl
    | cons m ms ih =>
      obtain ⟨m, material⟩ := m
      rw [emitAll, (split _ _).1, ih]
      by_cases he : m.faces = []
      · simp [empty _ _ m material he, he, vLines]
      · rw [(lines_emit m he material vo no).1, List.filter_cons_of_pos (by simpa using he), List.flatMap_cons]
  · induction ms generalizing vo no with
    | nil => rfl
    | cons m ms ih =>
      obtain ⟨m, material⟩ := m
      rw [emitAll, (split _ _).2, ih]
      by_cases he : m.faces = []
      · simp [empty _ _ m material he, he, vnLines]
      · rw [(lines_emit m he material vo no).2.1, List.filter_cons_of_pos (by simpa using he), List.flatMap_cons]

/-! Two triangles that share an edge, in two meshes with an empty one in between. -/

/-- A triangle. -/
def triangleA : GeoFace Nat Nat := ⟨[10, 20, 30], [7, 7, 7]⟩

/-- A triangle that shares an edge with it. -/
def triangleB : GeoFace Nat Nat := ⟨[30, 20, 40], [7, 7, 8]⟩

/-- A mesh of both. -/
def meshAB : GeoMesh Nat Nat := (GeoMesh.empty.addFace [(10, 7), (20, 7), (30, 7)]).addFace [(30, 7), (20, 7), (40, 8)]

theorem meshAB_built : Built meshAB [[(10, 7), (20, 7), (30, 7)], [(30, 7), (20, 7), (40, 8)]] :=
  .push triangleB (.push triangleA .new rfl rfl) rfl rfl

example : meshAB.faces = [[(0, 0), (1, 0), (2, 0)], [(2, 0), (1, 0), (3, 1)]] ∧
    meshAB.vertices.vector = [10, 20, 30, 40] ∧ meshAB.normals.vector = [7, 8] := by decide +kernel

example : ∃ m, (GeoMesh.empty.addFace [(40, 7), (20, 7), (50, 9)]).addFacesFrom meshAB = .ok m ∧
    m.vertices.vector = [40, 20, 50, 10, 30] := by
  exact ⟨_, rfl, by decide +kernel⟩

example : fLines (emitAll 0 0 [(meshAB, "a"), (.empty, "b"), (meshAB, "")]) =
    [[(1, 1), (2, 1), (3, 1)], [(3, 1), (2, 1), (4, 2)], [(5, 3), (6, 3), (7, 3)], [(7, 3), (6, 3), (8, 4)]] := by
  decide +kernel

example : List.Forall₂ (fun (m : GeoMesh Nat Nat × String) fs => Built m.1 fs)
    [(meshAB, "a"), (.empty, "b"), (meshAB, "")]
    [[[(10, 7), (20, 7), (30, 7)], [(30, 7), (20, 7), (40, 8)]], [], [[(10, 7), (20, 7), (30, 7)], [(30, 7), (20, 7), (40, 8)]]] :=
  .cons meshAB_built (.cons .new (.cons meshAB_built .nil))

end Maliput.Props
