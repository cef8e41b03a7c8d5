import Verif.Lemmas.MeshSimplification
import Verif.Props.DouglasPeucker

set_option autoImplicit false

/-! Properties C46, C59 and C60: simplification of meshes, contours of sets of faces, adjacency of faces. -/
namespace Maliput.Props

open Maliput.MeshSimplification Maliput.Linear
open Maliput.Mesh (GeoMesh GeoFace)
open Maliput.Mesh.Spec (Built)
open Maliput.DouglasPeucker.Spec (Simplified distance along InPlane)
open Maliput.MeshSimplification.Spec
open Maliput.RouteGraph (Stop)

open Classical in
/-- C60: the adjacency map can be computed exactly if no directed edge occurs twice, and otherwise the program aborts;
it has a row for each face that has vertices, with as many entries as vertices, and entry `i` of the row of face `f` is
the edge that joins the same vertices as edge `i` of `f` in the opposite direction, if there is one. -/
theorem adjacency_correct (faces : List (List Nat)) :
    (OnceEach faces → ∃ adj, faceAdjacency faces = .ok adj) ∧
    (¬ OnceEach faces → faceAdjacency faces = .error .aborts) ∧
    ∀ adj, faceAdjacency faces = .ok adj →
      (∀ f, (adj.get? f).isSome ↔ ∃ face, faces[f]? = some face ∧ face ≠ []) ∧
      ∀ f row, adj.get? f = some row → (∃ face, faces[f]? = some face ∧ row.length = face.length) ∧
        (∀ (i : Nat) e, row[i]? = some (some e) ↔ Twins faces (f, i) e) ∧
        ∀ (i : Nat), row[i]? = some none ↔ (edge faces (f, i)).isSome ∧ ∀ e, ¬ Twins faces (f, i) e := by
  refine ⟨adjacency_ok.2, ?_, ?_⟩
  · intro h
    rcases ha : faceAdjacency faces with e | adj
    · rw [adjacency_error ha]
    · exact absurd (adjacency_ok.1 ⟨adj, ha⟩) h
  · intro adj ha
    obtain ⟨inv, hi⟩ := inverse_ok.2 (adjacency_ok.1 ⟨adj, ha⟩)
    have hget := adjacency_get hi ha
    constructor
    · intro f
      rw [hget]
      rcases hf : faces[f]? with _ | face
      · simp [List.getD, hf]
      · by_cases hn : face = [] <;> simp [List.getD, hf, hn]
    · intro f row hr
      rw [hget] at hr
      split at hr
      · cases hr
      · next hne =>
        simp only [Option.some.injEq] at hr
        subst hr
        have hin : ∀ (i : Nat), ((List.range (faces.getD f []).length).map fun i => twin inv faces (f, i))[i]? =
            if Valid faces (f, i) then some (twin inv faces (f, i)) else none := by
          intro i
          rw [List.getElem?_map]
          by_cases hv : Valid faces (f, i)
          · rw [List.getElem?_range hv, if_pos hv]; rfl
          · rw [List.getElem?_eq_none (by simpa [Valid] using hv), if_neg hv]; rfl
        refine ⟨⟨faces.getD f [], ?_, by simp⟩, ?_, ?_⟩
        · have hlt := lt_of_getD_ne hne
          rw [List.getD, List.getElem?_eq_getElem hlt]; rfl
        · intro i e
          rw [hin]
          split
          · next hv => rw [Option.some.injEq, twin_some hi hv]
          · next hv => simpa using fun ht => hv (twins_valid ht).1
        · intro i
          rw [hin]
          split
          · next hv =>
            rw [Option.some.injEq, edge_eq_some.2 ⟨hv, rfl⟩]
            simp only [Option.isSome_some, true_and, ← twin_some hi hv]
            rcases twin inv faces (f, i) with _ | e <;> simp
          · next hv =>
            simp only [false_iff, not_and, reduceCtorEq]
            intro he
            obtain ⟨d, hd⟩ := Option.isSome_iff_exists.1 he
            exact absurd (edge_eq_some.1 hd).1 hv

/-- C59: for a set of faces that have vertices, the computation of the contour ends.  If the set has a boundary edge,
the contour is a closed chain of boundary edges without repetitions; otherwise the program aborts. -/
theorem contour_closed (faces : List (List Nat)) (adj : Adjacency) (region : List Nat)
    (ha : faceAdjacency faces = .ok adj) (hr : ∀ f ∈ region, ∃ face, faces[f]? = some face ∧ face ≠ []) :
    ((∃ e, Boundary faces region e) → ∃ c, contour region adj = .ok c ∧ c ≠ [] ∧ c.Nodup ∧
      (∀ e ∈ c, Boundary faces region e) ∧ Closed faces c) ∧
    ((∀ e, ¬ Boundary faces region e) → contour region adj = .error (.err .aborts)) := by
  obtain ⟨inv, hi⟩ := inverse_ok.2 (adjacency_ok.1 ⟨adj, ha⟩)
  have hne : ∀ f ∈ region, faces.getD f [] ≠ [] := by
    intro f hf
    obtain ⟨face, h1, h2⟩ := hr f hf
    simpa [List.getD, h1] using h2
  rcases contour_spec hi ha hne with h | ⟨h1, h2⟩
  · refine ⟨fun _ => h, fun hn => ?_⟩
    obtain ⟨c, -, h2, -, h3, -⟩ := h
    obtain ⟨e, he⟩ := List.exists_mem_of_ne_nil c h2
    exact absurd (h3 e he) (hn e)
  · exact ⟨fun ⟨e, he⟩ => absurd he (h2 e), fun _ => h1⟩

/-- C59: if the boundary of the set is one closed curve that does not touch itself, the contour is all of it. -/
theorem contour_complete (faces : List (List Nat)) (adj : Adjacency) (region : List Nat) (c : List FaceEdge)
    (ha : faceAdjacency faces = .ok adj) (hr : ∀ f ∈ region, ∃ face, faces[f]? = some face ∧ face ≠ [])
    (hc : contour region adj = .ok c)
    (hstart : ∀ e e' a b b', Boundary faces region e → Boundary faces region e' → edge faces e = some (a, b) →
      edge faces e' = some (a, b') → e = e')
    (hconn : ∀ e e', Boundary faces region e → Boundary faces region e' →
      Relation.ReflTransGen (fun x y => Boundary faces region y ∧ Follows faces x y) e e') :
    ∀ e, e ∈ c ↔ Boundary faces region e := by
  obtain ⟨h1, h2⟩ := contour_closed faces adj region ha hr
  by_cases hb : ∃ e, Boundary faces region e
  · obtain ⟨c', h3, h4, -, h5, h6⟩ := h1 hb
    rw [hc] at h3
    cases h3
    exact fun e => ⟨h5 e, closed_complete h4 h5 h6 hstart hconn e⟩
  · push Not at hb
    rw [h2 hb] at hc
    cases hc

/-- Four faces around a hole. -/
def fourAround : List (List Nat) := [[0, 1, 5, 4], [1, 2, 6, 5], [2, 3, 7, 6], [3, 0, 4, 7]]

/-- The adjacency of the four faces. -/
def fourAdjacent : Adjacency :=
  Map.ofList [(0, [none, some (1, 3), none, some (3, 1)]), (1, [none, some (2, 3), none, some (0, 1)]),
    (2, [none, some (3, 3), none, some (1, 1)]), (3, [none, some (0, 3), none, some (2, 1)])]

/-- Without that proviso boundary edges are missed: the contour of a ring of four faces is its outer boundary, and not
the boundary of its hole. -/
theorem contour_misses_hole :
    ∃ (faces : List (List Nat)) (adj : Adjacency) (region : List Nat) (c : List FaceEdge) (e : FaceEdge),
      faceAdjacency faces = .ok adj ∧ contour region adj = .ok c ∧ Connected faces region ∧ Boundary faces region e ∧
        e ∉ c := by
  have ha : faceAdjacency fourAround = .ok fourAdjacent := by decide +kernel
  refine ⟨fourAround, fourAdjacent, [0, 1, 2, 3], [(0, 0), (1, 0), (2, 0), (3, 0)], (0, 2), ha, by decide +kernel, ?_,
    ⟨by simp, rfl, ?_⟩, by decide⟩
  · have r1 := (Relation.ReflTransGen.refl (r := Inside fourAround [0, 1, 2, 3]) (a := 0)).tail
      (c := 1) ⟨by simp, by simp, ⟨1, 3, 1, 5, rfl, rfl⟩⟩
    have r2 := r1.tail (c := 2) ⟨by simp, by simp, ⟨1, 3, 2, 6, rfl, rfl⟩⟩
    have r3 := r2.tail (c := 3) ⟨by simp, by simp, ⟨1, 3, 3, 7, rfl, rfl⟩⟩
    have reach : ∀ f ∈ [0, 1, 2, 3], Relation.ReflTransGen (Inside fourAround [0, 1, 2, 3]) 0 f := by
      intro f hf
      simp only [List.mem_cons, List.not_mem_nil, or_false] at hf
      rcases hf with rfl | rfl | rfl | rfl
      · exact .refl
      · exact r1
      · exact r2
      · exact r3
    intro f hf g hg
    exact (inside_symm (reach f hf)).trans (reach g hg)
  · obtain ⟨-, -, h⟩ := adjacency_correct fourAround
    have := ((h _ ha).2 0 [none, some (1, 3), none, some (3, 1)] (by decide +kernel)).2.2 2
    intro e ht
    exact absurd ht ((this.1 rfl).2 e)

open Classical in
/-- C46: if `SimplifyMeshFaces` returns, the sets of faces it merged are a partition of the faces of the mesh. -/
theorem simplify_partition {m : GeoMesh V3 V3} {fs : List (List (V3 × V3))} (h : Built m fs) (tolerance : ℝ)
    {groups : List (List Nat)} {out : GeoMesh V3 V3} (hr : simplifyMeshFaces m tolerance = .ok (groups, out)) :
    Partition (fs.map (·.map (·.1))) (Planar fs tolerance) (Coplanar fs tolerance) groups := by
  have hh := Mesh.holds_of_built h
  have hp : ((planesOf m tolerance).planar · = true) = Planar fs tolerance := by
    funext f; exact propext (planar_iff hh tolerance f)
  have hc : ((planesOf m tolerance).coplanar · · = true) = Coplanar fs tolerance := by
    funext f g; exact propext (coplanar_iff hh tolerance f g)
  rcases ha : faceAdjacency (vertexIndices m) with e | adj
  · simp [simplifyMeshFaces, simplifyMesh, ha, RouteGraph.lift, bind, Except.bind] at hr
  · obtain ⟨inv, hi⟩ := inverse_ok.2 (adjacency_ok.1 ⟨adj, ha⟩)
    have := simplifyLoop_ok hh hi ha (planesOf m tolerance)
      (simp := DouglasPeucker.simplifyContour (position m) tolerance) (fun c e he => mem_simplifyContour he)
      (vertexIndices m).length 0 [] .empty [] (by simp) (by simp) .new
    rw [← List.range_eq_range'] at this
    have hl : (vertexIndices m).length = m.faces.length := by simp [vertexIndices]
    rw [hl] at this
    have hr' : simplifyLoop m (planesOf m tolerance) (DouglasPeucker.simplifyContour (position m) tolerance) adj
        (List.range m.faces.length) [] .empty = .ok (groups, out) := by
      simpa [simplifyMeshFaces, simplifyMesh, ha, RouteGraph.lift, bind, Except.bind] using hr
    rw [hr'] at this
    rcases this with ⟨gs, out', new, h1, h2, -⟩ | ⟨h1, -⟩
    · cases h1
      have := partition_positions hh (groups_partition h2)
      rw [hp, hc] at this
      exact this
    · cases h1

open Classical in
/-- C46: if `SimplifyMeshFaces` returns, the mesh it returns has one face for each set of faces it merged, in order: a
closed chain of boundary edges of the set, of which vertices may be dropped that are within the tolerance of the line
through the vertices around them, if these are at different positions. -/
theorem simplify_faces {m : GeoMesh V3 V3} {fs : List (List (V3 × V3))} (h : Built m fs) (tolerance : ℝ)
    {groups : List (List Nat)} {out : GeoMesh V3 V3} (hr : simplifyMeshFaces m tolerance = .ok (groups, out)) :
    ∃ faces, Built out faces ∧ List.Forall₂ (fun group face =>
      ∃ (c : List FaceEdge) (vertices : List (V3 × V3)), c ≠ [] ∧ c.Nodup ∧
        (∀ e ∈ c, Boundary (fs.map (·.map (·.1))) group e) ∧ Closed (fs.map (·.map (·.1))) c ∧
        List.Forall₂ (fun e vn => ∃ f, fs[e.1]? = some f ∧ f[e.2]? = some vn) c vertices ∧
        (c.length ≤ 3 → face = vertices) ∧
        Simplified (fun a b z => a.1 ≠ b.1 →
          ∃ t, distance z.1 (along a.1 ⟨b.1.x - a.1.x, b.1.y - a.1.y, b.1.z - a.1.z⟩ t) ≤ tolerance) vertices face)
      groups faces := by
  have hh := Mesh.holds_of_built h
  rcases ha : faceAdjacency (vertexIndices m) with e | adj
  · simp [simplifyMeshFaces, simplifyMesh, ha, RouteGraph.lift, bind, Except.bind] at hr
  · obtain ⟨inv, hi⟩ := inverse_ok.2 (adjacency_ok.1 ⟨adj, ha⟩)
    have := simplifyLoop_ok hh hi ha (planesOf m tolerance)
      (simp := DouglasPeucker.simplifyContour (position m) tolerance) (fun c e he => mem_simplifyContour he)
      (vertexIndices m).length 0 [] .empty [] (by simp) (by simp) .new
    rw [← List.range_eq_range'] at this
    have hl : (vertexIndices m).length = m.faces.length := by simp [vertexIndices]
    rw [hl] at this
    have hr' : simplifyLoop m (planesOf m tolerance) (DouglasPeucker.simplifyContour (position m) tolerance) adj
        (List.range m.faces.length) [] .empty = .ok (groups, out) := by
      simpa [simplifyMeshFaces, simplifyMesh, ha, RouteGraph.lift, bind, Except.bind] using hr
    rw [hr'] at this
    rcases this with ⟨gs, out', new, h1, -, h3, h4⟩ | ⟨h1, -⟩
    swap
    · cases h1
    cases h1
    refine ⟨new, by simpa using h3, h4.imp ?_⟩
    rintro group face ⟨c, c1, c2, c3, c4, c5⟩
    have hval : ∀ e ∈ c, ∃ vn, (fs[e.1]?.bind (·[e.2]?)) = some vn ∧ vertexAt m e = .ok vn := fun e he =>
      vertexAt_ok hh (Boundary.inRegion (c3 e he)).1
    have hvert : ∃ vertices : List (V3 × V3), List.Forall₂ (fun e vn => (fs[e.1]?.bind (·[e.2]?)) = some vn) c vertices := by
      have : ∀ l : List FaceEdge, (∀ e ∈ l, e ∈ c) → ∃ vertices : List (V3 × V3),
          List.Forall₂ (fun e vn => (fs[e.1]?.bind (·[e.2]?)) = some vn) l vertices := by
        intro l
        induction l with
        | nil => exact fun _ => ⟨[], .nil⟩
        | cons e l ih =>
          intro hl
          obtain ⟨vs, hvs⟩ := ih fun e he => hl e (List.mem_cons_of_mem _ he)
          obtain ⟨vn, hvn, -⟩ := hval e (hl e List.mem_cons_self)
          exact ⟨vn :: vs, .cons hvn hvs⟩
      exact this c fun _ h => h
    obtain ⟨vertices, hvert⟩ := hvert
    have hR : ∀ {e : FaceEdge} {vn : V3 × V3}, e ∈ c → (fs[e.1]?.bind (·[e.2]?)) = some vn → position m e = vn.1 := by
      intro e vn he h1
      obtain ⟨vn', h2, h3⟩ := hval e he
      rw [h1] at h2
      cases h2
      rw [position, h3]
    refine ⟨c, vertices, c1, c2, fun e he => (boundary_positions hh group e).2 (c3 e he), (closed_positions hh c).2 c4,
      hvert.imp fun e vn he => ?_, ?_, ?_⟩
    · rcases hf : fs[e.1]? with _ | f
      · rw [hf] at he; simp at he
      · rw [hf] at he; exact ⟨f, rfl, by simpa using he⟩
    · intro hlen
      rw [DouglasPeucker.simplifyContour, if_pos hlen] at c5
      clear hR hval c1 c2 c3 c4 hlen
      induction hvert generalizing face with
      | nil => cases c5; rfl
      | cons ha _ ih =>
        cases c5 with
        | cons hb hrest => rw [ih _ hrest, Option.some.inj (hb.symm.trans ha)]
    · have hin : ∀ {l : List FaceEdge} {vs : List (V3 × V3)}, (∀ e ∈ l, e ∈ c) →
          List.Forall₂ (fun e vn => (fs[e.1]?.bind (·[e.2]?)) = some vn) l vs →
          List.Forall₂ (fun e vn => e ∈ c ∧ (fs[e.1]?.bind (·[e.2]?)) = some vn) l vs := by
        intro l vs hl h
        induction h with
        | nil => exact .nil
        | cons hx _ ih =>
          exact .cons ⟨hl _ List.mem_cons_self, hx⟩ (ih fun e he => hl e (List.mem_cons_of_mem _ he))
      refine simplified_map (hin (fun _ h => h) hvert) ?_ (hin (fun e he => mem_simplifyContour he) c5) ?_
        (contour_simplified_partial (position m) tolerance c c1)
      · rintro a b z a' b' z' ⟨ma, ra⟩ ⟨mb, rb⟩ ⟨mz, rz⟩ hnear hne
        rw [hR ma ra, hR mb rb, hR mz rz] at hnear
        exact hnear hne
      · rintro a b b' ⟨-, h1⟩ ⟨-, h2⟩
        exact Option.some.inj (h1.symm.trans h2)

open Classical in
/-- C46: `SimplifyMeshFaces` returns or aborts.  It returns if no directed edge occurs twice, the tolerance is positive,
each face has three vertices at least, and each connected set of faces has a boundary edge.  It aborts if a directed edge
occurs twice, or there are faces and the tolerance is not positive. -/
theorem simplify_outcome {m : GeoMesh V3 V3} {fs : List (List (V3 × V3))} (h : Built m fs) (tolerance : ℝ) :
    ((∃ r, simplifyMeshFaces m tolerance = .ok r) ∨ simplifyMeshFaces m tolerance = .error (.err .aborts)) ∧
    (OnceEach (fs.map (·.map (·.1))) → 0 < tolerance → (∀ f ∈ fs, 3 ≤ f.length) →
      (∀ group, group ≠ [] → (∀ f ∈ group, f < fs.length) → Connected (fs.map (·.map (·.1))) group →
        ∃ e, Boundary (fs.map (·.map (·.1))) group e) → ∃ r, simplifyMeshFaces m tolerance = .ok r) ∧
    ((¬ OnceEach (fs.map (·.map (·.1))) ∨ (fs ≠ [] ∧ tolerance ≤ 0)) →
      simplifyMeshFaces m tolerance = .error (.err .aborts)) := by
  have hh := Mesh.holds_of_built h
  have honce : OnceEach (fs.map (·.map (·.1))) ↔ OnceEach (vertexIndices m) := onceEach_positions hh
  have hlen : (vertexIndices m).length = fs.length := by
    rw [← length_positions hh]; simp [positions]
  rcases ha : faceAdjacency (vertexIndices m) with e | adj
  · have he := adjacency_error ha
    subst he
    have : simplifyMeshFaces m tolerance = .error (.err .aborts) := by
      simp [simplifyMeshFaces, simplifyMesh, ha, RouteGraph.lift, bind, Except.bind]
    refine ⟨.inr this, fun ho => ?_, fun _ => this⟩
    obtain ⟨adj, h1⟩ := adjacency_ok.2 (honce.1 ho)
    rw [h1] at ha; cases ha
  · have ho := adjacency_ok.1 ⟨adj, ha⟩
    obtain ⟨inv, hi⟩ := inverse_ok.2 ho
    have := simplifyLoop_ok hh hi ha (planesOf m tolerance)
      (simp := DouglasPeucker.simplifyContour (position m) tolerance) (fun c e he => mem_simplifyContour he)
      (vertexIndices m).length 0 [] .empty [] (by simp) (by simp) .new
    rw [← List.range_eq_range'] at this
    have hl : (vertexIndices m).length = m.faces.length := by simp [vertexIndices]
    rw [hl] at this
    have hr' : simplifyMeshFaces m tolerance = simplifyLoop m (planesOf m tolerance)
        (DouglasPeucker.simplifyContour (position m) tolerance) adj (List.range m.faces.length) [] .empty := by
      simp [simplifyMeshFaces, simplifyMesh, ha, RouteGraph.lift, bind, Except.bind]
    rw [hr']
    refine ⟨?_, ?_, ?_⟩
    · rcases this with ⟨gs, out', new, h1, -⟩ | ⟨h1, -⟩
      · exact .inl ⟨_, h1⟩
      · exact .inr h1
    · intro _ ht h3 hb
      rcases this with ⟨gs, out', new, h1, -⟩ | ⟨h1, hst⟩
      · exact ⟨_, h1⟩
      · exfalso
        rcases hst with hst | ⟨f, hf, hst⟩ | ⟨group, g1, g2, g3, g4⟩
        · simp [planesOf, ht] at hst
        · obtain ⟨k, hk, rfl⟩ := List.mem_iff_getElem.1 hf
          have h5 := vertexIndices_getD hh.faces k
          simp only [List.getD, List.getElem?_eq_getElem hk, List.getElem?_eq_getElem (show k < fs.length by omega),
            Option.getD_some] at h5
          have := h3 _ (List.getElem_mem (show k < fs.length by omega))
          omega
        · obtain ⟨e, he⟩ := hb group g1 (by rw [← hlen]; exact g2) ((connected_positions hh group).2 g3)
          exact g4 e ((boundary_positions hh group e).1 he)
    · rintro (hn | ⟨hne, ht⟩)
      · exact absurd (honce.2 ho) hn
      · have hpos : 0 < m.faces.length := by
          rw [← hl, hlen]; exact List.length_pos_iff.2 hne
        obtain ⟨n, hn⟩ : ∃ n, m.faces.length = n + 1 := ⟨m.faces.length - 1, by omega⟩
        rw [hn, List.range_succ_eq_map, simplifyLoop, if_neg (by simp)]
        rcases aggregate_ok hi ha (planesOf m tolerance) (visited := []) (start := 0) (by omega) (by simp) with
          ⟨h1, -⟩ | ⟨h1, -⟩
        · simp [planesOf] at h1; linarith
        · rw [h1]; rfl

/-- C46: all vertices of the faces of a set of two or more faces are at distances less than the tolerance, times the
length of its normal, to the plane of the first vertex of its first face. -/
theorem simplify_planes {fs : List (List (V3 × V3))} {tolerance : ℝ} (ht : 0 < tolerance) {groups : List (List Nat)}
    {faces : List (List V3)} (h : Partition faces (Planar fs tolerance) (Coplanar fs tolerance) groups)
    {first second : Nat} {rest : List Nat} (hg : (first :: second :: rest) ∈ groups) :
    ∃ p n tail, fs[first]? = some ((p, n) :: tail) ∧
      ∀ f ∈ first :: second :: rest, ∀ face, fs[f]? = some face → ∀ vn ∈ face,
        ∃ q, InPlane n p q ∧ distance vn.1 q ≤ tolerance * distance n ⟨0, 0, 0⟩ := by
  have dist0 : ∀ n : V3, 0 ≤ distance n ⟨0, 0, 0⟩ := fun n => Real.sqrt_nonneg _
  have near : ∀ {n p x nx : V3}, OnPlane n p tolerance x nx →
      ∃ q, InPlane n p q ∧ distance x q ≤ tolerance * distance n ⟨0, 0, 0⟩ := by
    rintro n p x nx ⟨-, t, h1, h2⟩
    exact ⟨_, h1, h2.le⟩
  obtain ⟨-, ⟨p, n, tail, h1, h2⟩, -⟩ := h.lies first (second :: rest) hg second List.mem_cons_self
  refine ⟨p, n, tail, h1, ?_⟩
  intro f hf face hface vn hvn
  rcases List.mem_cons.1 hf with rfl | hf
  · rw [h1] at hface
    cases hface
    rcases List.mem_cons.1 hvn with rfl | hvn
    · refine ⟨p, by simp [InPlane], ?_⟩
      have : distance p p = 0 := by simp [distance]
      simp only [this]
      exact mul_nonneg ht.le (dist0 n)
    · exact near (h2 vn hvn)
  · obtain ⟨-, -, p', n', tail', h3, h4⟩ := h.lies first (second :: rest) hg f hf
    rw [h1] at h3
    cases h3
    exact near (h4 face hface vn hvn)

/-! A square of two triangles, its contour, and the mesh simplified with all faces coplanar. -/

/-- The vertex indices of two triangles that share an edge. -/
def twoTriangles : List (List Nat) := [[0, 1, 2], [2, 1, 3]]

example : (faceAdjacency twoTriangles).map (·.entries) =
    .ok [(0, [none, some (1, 0), none]), (1, [some (0, 1), none, none])] := by decide +kernel

example : ((faceAdjacency twoTriangles).bind fun adj =>
    match contour [0, 1] adj with | .ok c => .ok c | .error _ => .error .aborts) =
      .ok [(0, 0), (1, 1), (1, 2), (0, 2)] := by decide +kernel

example : faceAdjacency [[0, 1, 2], [0, 1, 3]] = .error .aborts := by decide +kernel

/-- Two triangles in a horizontal plane that share an edge. -/
def flatTriangles : List (List (V3 × V3)) :=
  [[(⟨0, 0, 0⟩, ⟨0, 0, 1⟩), (⟨1, 0, 0⟩, ⟨0, 0, 1⟩), (⟨0, 1, 0⟩, ⟨0, 0, 1⟩)],
   [(⟨0, 1, 0⟩, ⟨0, 0, 1⟩), (⟨1, 0, 0⟩, ⟨0, 0, 1⟩), (⟨1, 1, 0⟩, ⟨0, 0, 1⟩)]]

theorem flatTriangles_edges {e : FaceEdge} {d : V3 × V3} (h : edge (flatTriangles.map (·.map (·.1))) e = some d) :
    (e, d) ∈ ([((0, 0), ⟨0, 0, 0⟩, ⟨1, 0, 0⟩), ((0, 1), ⟨1, 0, 0⟩, ⟨0, 1, 0⟩), ((0, 2), ⟨0, 1, 0⟩, ⟨0, 0, 0⟩),
      ((1, 0), ⟨0, 1, 0⟩, ⟨1, 0, 0⟩), ((1, 1), ⟨1, 0, 0⟩, ⟨1, 1, 0⟩), ((1, 2), ⟨1, 1, 0⟩, ⟨0, 1, 0⟩)] :
      List (FaceEdge × V3 × V3)) := by
  obtain ⟨f, i⟩ := e
  rcases f with _ | _ | f
  · rcases i with _ | _ | _ | i
    · simp_all [edge, flatTriangles]
    · simp_all [edge, flatTriangles]
    · simp_all [edge, flatTriangles]
    · simp [edge, flatTriangles] at h
  · rcases i with _ | _ | _ | i
    · simp_all [edge, flatTriangles]
    · simp_all [edge, flatTriangles]
    · simp_all [edge, flatTriangles]
    · simp [edge, flatTriangles] at h
  · simp [edge, flatTriangles] at h

open Classical in
example : ∃ m, Built m flatTriangles ∧ ∃ r, simplifyMeshFaces m 1 = .ok r := by
  have hb := built_addFace (built_addFace (Built.new (V := V3) (N := V3)) (flatTriangles.getD 0 [])) (flatTriangles.getD 1 [])
  refine ⟨_, hb, (simplify_outcome hb 1).2.1 ?_ one_pos (by simp [flatTriangles]) ?_⟩
  · intro e e' d h h'
    have h1 := flatTriangles_edges h
    have h2 := flatTriangles_edges h'
    simp only [List.mem_cons, Prod.mk.injEq, List.not_mem_nil, or_false] at h1 h2
    rcases h1 with ⟨rfl, rfl⟩ | ⟨rfl, rfl⟩ | ⟨rfl, rfl⟩ | ⟨rfl, rfl⟩ | ⟨rfl, rfl⟩ | ⟨rfl, rfl⟩ <;>
      (simp at h2; exact h2.symm)
  · intro group hne hlt _
    obtain ⟨f, hf⟩ := List.exists_mem_of_ne_nil group hne
    have := hlt f hf
    have h01 : f = 0 ∨ f = 1 := by simp [flatTriangles] at this; omega
    have none : ∀ e, e = ((0, 0) : FaceEdge) ∨ e = (1, 1) → ∀ e', ¬ Twins (flatTriangles.map (·.map (·.1))) e e' := by
      rintro e he e' ⟨a, b, h1, h2⟩
      have h1 := flatTriangles_edges h1
      have h2 := flatTriangles_edges h2
      rcases he with rfl | rfl
      · simp at h1
        obtain ⟨rfl, rfl⟩ := h1
        simp at h2
      · simp at h1
        obtain ⟨rfl, rfl⟩ := h1
        simp at h2
    rcases h01 with rfl | rfl
    · exact ⟨(0, 0), hf, rfl, fun e' ht => absurd ht (none _ (.inl rfl) e')⟩
    · exact ⟨(1, 1), hf, rfl, fun e' ht => absurd ht (none _ (.inr rfl) e')⟩

example : Planar flatTriangles 1 0 ∧ Coplanar flatTriangles 1 0 1 := by
  have on : ∀ x y : ℝ, OnPlane ⟨0, 0, 1⟩ ⟨0, 0, 0⟩ 1 ⟨x, y, 0⟩ ⟨0, 0, 1⟩ := by
    intro x y
    refine ⟨by simp [V3.dot], 0, by simp [InPlane, along], by simp [distance, along]⟩
  refine ⟨⟨_, _, _, rfl, ?_⟩, ⟨_, _, _, rfl, ?_⟩⟩
  · intro vn hvn
    simp only [List.mem_cons, List.not_mem_nil, or_false] at hvn
    rcases hvn with rfl | rfl <;> exact on _ _
  · rintro face hf vn hvn
    simp only [flatTriangles, List.getElem?_cons_succ, List.getElem?_cons_zero, Option.some.injEq] at hf
    subst hf
    simp only [List.mem_cons, List.not_mem_nil, or_false] at hvn
    rcases hvn with rfl | rfl | rfl <;> exact on _ _

end Maliput.Props
