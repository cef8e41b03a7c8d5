import Verif.Lemmas.RoadGeometryMesh
import Verif.Props.BuildMeshes

set_option autoImplicit false

/-! The meshes of single lanes, segments and branch points, and the maps of them. -/
namespace Maliput.Props

open Maliput.GenerateObj
open Maliput.GenerateObj.Spec
open Maliput.RoadMesh (Lane Pos RBounds Srh SrhFace)
open Maliput.RouteGraph (Stop lift)
open Maliput.Mesh.Spec (Built)

/-! ### C91 -/

/-- C91.  Each type of mesh has a material. -/
theorem material_of_type (t : MaterialType) : ∃ m ∈ materials, materialFromMesh t = .ok m ∧ m.name = materialName t := by
  obtain ⟨m, h1, h2, h3⟩ := materialFromMesh_ok t
  exact ⟨m, h3, h1, h2⟩

/-- C91.  A material is found by its name, and any other name throws. -/
theorem material_by_name (name : String) :
    (∀ m ∈ materials, m.name = name → materialByName name = .ok m) ∧
    ((∀ m ∈ materials, m.name ≠ name) → materialByName name = .error .throws) := by
  refine ⟨?_, ?_⟩
  · rintro m hm rfl
    simp only [materials, List.mem_cons, List.not_mem_nil, or_false] at hm
    rcases hm with rfl | rfl | rfl | rfl | rfl | rfl | rfl | rfl | rfl <;> decide +kernel
  · intro h
    have : materials.find? (fun m => m.name == name) = none := by
      rw [List.find?_eq_none]
      intro m hm
      simpa using h m hm
    simp [materialByName, this]

/-- C91.  Of the nine names that the documentation lists, only the last one is found. -/
theorem material_documented_names :
    (∀ name ∈ ["asphalt", "lane", "marker", "h_bounds", "branch_point", "grayed_asphalt", "grayed_lane", "grayed_marker"],
      materialByName name = .error .throws) ∧ ∃ m, materialByName "sidewalk" = .ok m := by
  refine ⟨?_, ?_⟩
  · intro name hn
    simp only [List.mem_cons, List.not_mem_nil, or_false] at hn
    rcases hn with rfl | rfl | rfl | rfl | rfl | rfl | rfl | rfl <;> rfl
  · exact ⟨_, rfl⟩

/-- C91.  The mesh of a lane: it has the faces of its type and the material of its type. -/
theorem lane_mesh (env : Env) (f : Features) (rg : RoadGeometry)
    (simplify : List (List (Pos × Pos)) → List (List (Pos × Pos))) (hS : Simplifies env f simplify) (hf : GoodFeatures f)
    {id : String} {l : Lane} (hid : rg.laneById id = some l) {tolerance : ℚ} (ht : 0 < tolerance) (hl : GoodLane tolerance l)
    {t : MaterialType} {fs : List (List (Pos × Pos))} (hfs : Drawing.ofLane ⟨env, f, tolerance, simplify⟩ l t = some fs) :
    ∃ m y, Returns (fun n => buildLaneMesh { env with bound := n } f rg id t) (m, y) ∧ y.name = materialName t ∧
      y ∈ materials ∧ Built m fs :=
  buildLaneMesh_ok (d := ⟨env, f, tolerance, simplify⟩) hS ht hf hid hl hfs

/-- C91.  The types of branch points and sidewalks throw for lanes; for an unknown lane a null pointer is used, except
that the type of branch points throws first. -/
theorem lane_mesh_refused (env : Env) (f : Features) (rg : RoadGeometry) (id : String) :
    buildLaneMesh env f rg id .branchPointGlow = .error (.err .throws) ∧
    ((rg.laneById id).isSome = true → buildLaneMesh env f rg id .sidewalk = .error (.err .throws)) ∧
    (rg.laneById id = none → ∀ t, t ≠ .branchPointGlow → buildLaneMesh env f rg id t = .error (.err .ub)) := by
  refine ⟨rfl, ?_, ?_⟩
  · intro h
    obtain ⟨l, hl⟩ := Option.isSome_iff_exists.1 h
    simp [buildLaneMesh, hl, throwUnless, lift, bind, Except.bind]
  · intro h t ht
    simp [buildLaneMesh, h, throwUnless, lift, bind, Except.bind, ht]

/-- C91.  The mesh of a segment is its surface. -/
theorem segment_mesh (env : Env) (f : Features) (rg : RoadGeometry)
    (simplify : List (List (Pos × Pos)) → List (List (Pos × Pos))) (hS : Simplifies env f simplify)
    {id : String} {seg : Segment} (hid : rg.segmentById id = some seg) {tolerance : ℚ} (ht : 0 < tolerance)
    (hseg : GoodSegment tolerance seg) (hne : seg.lanes ≠ []) {t : MaterialType} (hty : t = .asphalt ∨ t = .grayedAsphalt) :
    ∃ m y, Returns (fun n => buildSegmentMesh { env with bound := n } f rg id t) (m, y) ∧ y.name = materialName t ∧
      y ∈ materials ∧ Built m (Drawing.asphalt ⟨env, f, tolerance, simplify⟩ seg) :=
  buildSegmentMesh_ok (d := ⟨env, f, tolerance, simplify⟩) hS ht hid hseg hne hty

/-- C91.  All other types throw for segments.  For an unknown segment, or one without lanes, a null pointer is used or a
lane that does not exist. -/
theorem segment_mesh_refused (env : Env) (f : Features) (rg : RoadGeometry) (id : String) (t : MaterialType) :
    (t ≠ .asphalt → t ≠ .grayedAsphalt → buildSegmentMesh env f rg id t = .error (.err .throws)) ∧
    (t = .asphalt ∨ t = .grayedAsphalt → (rg.segmentById id = none ∨ ∃ seg, rg.segmentById id = some seg ∧ seg.lanes = []) →
      buildSegmentMesh env f rg id t = .error (.err .ub)) := by
  refine ⟨?_, ?_⟩
  · intro h1 h2
    simp [buildSegmentMesh, throwUnless, lift, bind, Except.bind, h1, h2]
  · rintro h1 (h2 | ⟨⟨_, _, _⟩, h2, rfl⟩)
    · rcases h1 with rfl | rfl <;> simp [buildSegmentMesh, throwUnless, lift, bind, Except.bind, h2]
    · rcases h1 with rfl | rfl <;> simp [buildSegmentMesh, throwUnless, lift, bind, Except.bind, h2]

/-- C91.  The mesh of a branch point: a diamond at its first lane end and an arrow at each of them, at the elevation of
the features. -/
theorem branch_point_mesh {f : Features} (hf : GoodFeatures f) {rg : RoadGeometry} {id : String} {bp : BranchPoint}
    (hid : rg.branchPointById id = some bp) {e : LaneEnd} (he : (bp.aSide ++ bp.bSide).head? = some e) :
    ∃ m y, buildBranchPointMesh f rg id .branchPointGlow = .ok (m, y) ∧ y.name = "branch_point_glow" ∧ y ∈ materials ∧
      Built m (Drawn.faces f.branchPointHeight ⟨bp, e, f.branchPointElevation⟩) :=
  buildBranchPointMesh_ok hf hid he

/-- C91.  All other types throw for branch points; an unknown one is a null pointer that is used.  A branch point without
lane ends, which is left out of the meshes of the whole road geometry, throws. -/
theorem branch_point_mesh_refused (f : Features) (rg : RoadGeometry) (id : String) :
    (∀ t, t ≠ .branchPointGlow → buildBranchPointMesh f rg id t = .error .throws) ∧
    (rg.branchPointById id = none → buildBranchPointMesh f rg id .branchPointGlow = .error .ub) ∧
    (∀ bp, rg.branchPointById id = some bp → bp.aSide = [] → bp.bSide = [] →
      buildBranchPointMesh f rg id .branchPointGlow = .error .outOfRange) := by
  refine ⟨?_, ?_, ?_⟩
  · intro t ht
    simp [buildBranchPointMesh, throwUnless, bind, Except.bind, ht]
  · intro h
    simp [buildBranchPointMesh, throwUnless, bind, Except.bind, h]
  · intro bp h ha hb
    simp [buildBranchPointMesh, throwUnless, bind, Except.bind, h, referenceEnd, ha, hb]

/-- What is left to do after the loops. -/
private theorem rgMesh_ok {env : Env} {f : Features} {rg : RoadGeometry} {t : Tour} {b : Meshes}
    (ht : tourJunctions env f rg = .ok t) (hb : tourBranchPoints f rg = .ok b) {y1 y2 y3 y4 : Material}
    (h1 : materialByName "bland_asphalt" = .ok y1) (h2 : materialByName "grayed_bland_asphalt" = .ok y2)
    (h3 : materialByName "h_bounds_haze" = .ok y3) (h4 : materialByName "sidewalk" = .ok y4) :
    buildRoadGeometryMesh env f rg = .ok
      ⟨Map.empty.set "asphalt" (t.walk.normal.asphalt, y1), Map.empty.set "grayed_asphalt" (t.walk.grayedAsphalt, y2),
       Map.empty.set "h_bounds" (t.walk.normal.hBounds, y3), t.laneLane, t.laneMarker, t.laneGrayedLane, t.laneGrayedMarker, b,
       Map.empty.set "sidewalk" (.empty, y4)⟩ := by
  have ok : ∀ {α β : Type} (a : α) (k : α → Except Stop β), (Except.ok a >>= k) = k a := fun _ _ => rfl
  have lok : ∀ {α : Type} (a : α), lift (Except.ok a) = Except.ok a := fun _ => rfl
  unfold buildRoadGeometryMesh
  rw [ht, ok, hb, ok, h1, lok, ok, h2, lok, ok, h3, lok, ok, h4, lok, ok]
  rfl

/-- A map with one mesh. -/
private theorem single {key material : String} {m : GeoMesh} {y : Material} (hn : y.name = material) (hy : y ∈ materials)
    {fs : List (List (Pos × Pos))} (hb : Built m fs) :
    Meshed (Map.empty.set key (m, y)) (fun x : String => x) material (fun _ => fs) [key] :=
  (Meshed.empty (fun x : String => x) material fun _ => fs).add (x := key) hn hy hb (by simp)

/-- C91.  For a road geometry that can be drawn and is complete, the maps have exactly these meshes: one surface of all
segments as usual and one of all gray ones, one of all elevation bounds, one of haze and one of markers for each lane, by
its id, in one of two maps each according to whether its segment is highlighted, one for each branch point, and an empty
one for sidewalks. -/
theorem road_geometry_mesh (env : Env) (f : Features) (rg : RoadGeometry)
    (simplify : List (List (Pos × Pos)) → List (List (Pos × Pos))) (hrg : GoodRoad rg) (hc : Complete rg)
    (hf : GoodFeatures f) (hS : Simplifies env f simplify) :
    let d := drawing env f rg simplify
    ∃ mesh : RoadGeometryMesh, Returns (fun n => buildRoadGeometryMesh { env with bound := n } f rg) mesh ∧
      Meshed mesh.asphalt id "bland_asphalt" (fun _ => (usual f rg).flatMap d.asphalt) ["asphalt"] ∧
      Meshed mesh.grayedAsphalt id "grayed_bland_asphalt" (fun _ => (gray f rg).flatMap d.asphalt) ["grayed_asphalt"] ∧
      Meshed mesh.hBounds id "h_bounds_haze" (fun _ => (segmentsOf rg).flatMap d.hBounds) ["h_bounds"] ∧
      Meshed mesh.laneLane (fun l : Lane => "lane_" ++ l.id) "lane_haze" (fun l => d.laneHaze (gridOf f rg.linearTolerance l) l)
        ((usual f rg).flatMap lanesOf) ∧
      Meshed mesh.laneMarker (fun l : Lane => "marker_" ++ l.id) "marker_paint" d.laneMarkers ((usual f rg).flatMap lanesOf) ∧
      Meshed mesh.laneGrayedLane (fun l : Lane => "grayed_lane_" ++ l.id) "grayed_lane_haze"
        (fun l => d.laneHaze (gridOf f rg.linearTolerance l) l) ((gray f rg).flatMap lanesOf) ∧
      Meshed mesh.laneGrayedMarker (fun l : Lane => "grayed_marker_" ++ l.id) "grayed_marker_paint" d.laneMarkers
        ((gray f rg).flatMap lanesOf) ∧
      Meshed mesh.branchPoint (fun bp : BranchPoint => "branch_point_" ++ bp.id) "branch_point_glow"
        (fun bp => (bp.aSide ++ bp.bSide).head?.elim [] fun e => Drawn.faces f.branchPointHeight ⟨bp, e, f.branchPointElevation⟩)
        (if f.drawBranchPoints then rg.branchPoints.filterMap id else []) ∧
      Meshed mesh.sidewalk id "sidewalk" (fun _ => []) ["sidewalk"] := by
  intro d
  obtain ⟨t, ⟨N, hN⟩, ht⟩ := tour_ok (d := d) hS hrg.tolerance hf hrg.segments hc
  obtain ⟨b, ⟨M, hM⟩, hb⟩ : ∃ b, Returns (fun _ => tourBranchPoints f rg) b ∧
      Meshed b (fun bp : BranchPoint => "branch_point_" ++ bp.id) "branch_point_glow"
        (fun bp => (bp.aSide ++ bp.bSide).head?.elim [] fun e => Drawn.faces f.branchPointHeight ⟨bp, e, f.branchPointElevation⟩)
        (if f.drawBranchPoints then rg.branchPoints.filterMap id else []) := by
    cases hd : f.drawBranchPoints with
    | false =>
      exact ⟨.empty, .const (by simp [tourBranchPoints, hd]), .empty _ _ _⟩
    | true =>
      simp only [tourBranchPoints, hd, if_true]
      have := Returns.foldlM (step := fun (_ : ℕ) (m : Meshes) (bp : Option BranchPoint) => (match bp with
        | none => .error (.err .ub)
        | some bp => do
          let mesh ← lift (buildBranchPointMesh f rg bp.id .branchPointGlow)
          return m.set ("branch_point_" ++ bp.id) mesh : Except Stop Meshes))
        (fun m done => (∀ bp, some bp ∈ done → some bp ∈ rg.branchPoints) ∧
          Meshed m (fun bp : BranchPoint => "branch_point_" ++ bp.id) "branch_point_glow"
          (fun bp => (bp.aSide ++ bp.bSide).head?.elim [] fun e => Drawn.faces f.branchPointHeight ⟨bp, e, f.branchPointElevation⟩)
          (done.filterMap id)) rg.branchPoints (by
          rintro m done bp hbp ⟨hd, hm⟩
          rcases bp with _ | bp
          · exact absurd hbp hc.branchPoints
          · obtain ⟨e, he⟩ : ∃ e, (bp.aSide ++ bp.bSide).head? = some e := by
              rcases h : bp.aSide ++ bp.bSide with _ | ⟨e, es⟩
              · exact absurd h (hc.ends bp hbp)
              · exact ⟨e, rfl⟩
            obtain ⟨g, y, h1, h2, h3, h4⟩ := buildBranchPointMesh_ok hf (hc.branchPointById bp hbp) he
            refine ⟨m.set ("branch_point_" ++ bp.id) (g, y), .const (by simp only [h1]; rfl), ?_, ?_⟩
            · intro bp' hb'
              rcases List.mem_append.1 hb' with q | q
              · exact hd bp' q
              · rw [List.mem_singleton.1 q]
                exact hbp
            · have := hm.add (x := bp) h2 h3 (by simpa [he] using h4) (by
                intro bp' hb' e'
                have e' := append_inj _ e'
                obtain ⟨o, q, q'⟩ := List.mem_filterMap.1 hb'
                simp only [id] at q'
                subst q'
                have k := hc.branchPointById bp' (hd bp' q)
                rw [e', hc.branchPointById bp hbp] at k
                exact (Option.some.inj k).symm)
              simpa using this) (s := .empty) (pre := []) ⟨by simp, .empty _ _ _⟩
      obtain ⟨b, h1, h2⟩ := this
      exact ⟨b, h1, by simpa using h2.2⟩
  obtain ⟨y1, h1, n1, e1⟩ := material_exists (name := "bland_asphalt") (by simp [materials])
  obtain ⟨y2, h2, n2, e2⟩ := material_exists (name := "grayed_bland_asphalt") (by simp [materials])
  obtain ⟨y3, h3, n3, e3⟩ := material_exists (name := "h_bounds_haze") (by simp [materials])
  obtain ⟨y4, h4, n4, e4⟩ := material_exists (name := "sidewalk") (by simp [materials])
  refine ⟨_, ⟨max N M, fun n hn => rgMesh_ok (hN n (le_of_max_le_left hn)) (hM n (le_of_max_le_right hn)) h1 h2 h3 h4⟩, ?_⟩
  exact ⟨single n1 e1 ht.walk.normal.asphalt, single n2 e2 ht.walk.asphalt, single n3 e3 ht.walk.normal.hBounds, ht.lane,
    ht.marker, ht.grayedLane, ht.grayedMarker, hb, single n4 e4 .new⟩

/-! A complete road. -/

/-- Two lanes in two segments, and a branch point. -/
def completeRoad : RoadGeometry where
  junctions := [some [some ⟨"one", [some bpLane], some (1 / 100)⟩],
    some [some ⟨"two", [some { bpLane with id := "second" }], some (1 / 100)⟩]]
  branchPoints := [some bpStart]
  linearTolerance := 1 / 100
  laneById id := if id = "first" then some bpLane else if id = "second" then some { bpLane with id := "second" } else none
  segmentById id := if id = "one" then some ⟨"one", [some bpLane], some (1 / 100)⟩ else none
  branchPointById id := if id = "start" then some bpStart else none

/-- The example road can be drawn and is complete. -/
theorem completeRoad_good : GoodRoad completeRoad ∧ Complete completeRoad := by
  have hseg : ∀ seg ∈ segmentsOf completeRoad, seg = ⟨"one", [some bpLane], some (1 / 100)⟩ ∨
      seg = ⟨"two", [some { bpLane with id := "second" }], some (1 / 100)⟩ := by
    intro seg hseg
    simpa [segmentsOf, completeRoad] using hseg
  refine ⟨⟨by norm_num [completeRoad], ?_, ?_⟩, ⟨by simp [completeRoad], ?_, ?_, ?_, by simp [completeRoad], ?_, ?_⟩⟩
  · intro seg h
    rcases hseg seg h with rfl | rfl
    · exact ⟨rfl, by simp, fun l hl => by
        simp [lanesOf] at hl
        rw [hl]
        exact ⟨by norm_num [bpLane], rfl⟩⟩
    · exact ⟨rfl, by simp, fun l hl => by
        simp [lanesOf] at hl
        rw [hl]
        exact ⟨by norm_num [bpLane], rfl⟩⟩
  · intro bp e hbp he
    have : bp = bpStart := by simpa [completeRoad] using hbp
    subst this
    have : (⟨bpLane, true⟩ : LaneEnd) = e := by simpa [bpStart] using he
    rw [← this]
    exact bpLane_upright true
  · intro segs h
    simp [completeRoad] at h
    rcases h with rfl | rfl <;> simp
  · intro seg h
    rcases hseg seg h with rfl | rfl <;> simp
  · intro seg h l hl
    rcases hseg seg h with rfl | rfl
    · simp [lanesOf] at hl
      subst hl
      rfl
    · simp [lanesOf] at hl
      subst hl
      rfl
  · intro bp hbp
    have : bp = bpStart := by simpa [completeRoad] using hbp
    subst this
    rfl
  · intro bp hbp
    have : bp = bpStart := by simpa [completeRoad] using hbp
    subst this
    simp [bpStart]

/-- Of its lanes one is drawn as usual and the other one gray. -/
example : ((usual { highlightedSegments := ["two"] } completeRoad).flatMap lanesOf).map (·.id) = ["second"] ∧
    ((gray { highlightedSegments := ["two"] } completeRoad).flatMap lanesOf).map (·.id) = ["first"] := by decide +kernel

end Maliput.Props
