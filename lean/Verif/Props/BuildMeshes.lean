import Verif.Lemmas.BuildMeshes
import Verif.Props.BranchPoints

set_option autoImplicit false

/-! The meshes of a road geometry. -/
namespace Maliput.Props

open Maliput.GenerateObj
open Maliput.GenerateObj.Spec
open Maliput.RoadMesh (Lane Pos RBounds Srh SrhFace)
open Maliput.RouteGraph (Stop lift)
open Maliput.Mesh.Spec (Built)

/-! ### C89 -/

/-- C89.  For a road geometry with a positive tolerance whose lanes have lengths that are not negative, where no segment
has null as its first lane and branch points are upright, building the meshes ends.  There are exactly nine meshes with
their materials.  Surfaces, haze and markers of the segments that are highlighted, or of all if none is, are in the
three meshes for those, and those of the other segments in the gray ones.  The bounds of elevation of all segments are in
one mesh, and so are the branch points.  Each of the features that is off leaves its meshes without faces. -/
theorem build_meshes (env : Env) (f : Features) (rg : RoadGeometry)
    (simplify : List (List (Pos × Pos)) → List (List (Pos × Pos))) (hrg : GoodRoad rg) (hf : GoodFeatures f)
    (hS : Simplifies env f simplify) :
    let d := drawing env f rg simplify
    ∃ (meshes : Map String (GeoMesh × Material)) (drawn : List Drawn),
      Returns (fun n => buildMeshes { env with bound := n } f rg) meshes ∧ BranchPointsDrawn f rg drawn ∧
      (∀ key, meshes.has key = true ↔ key ∈ ["asphalt", "lane", "marker", "h_bounds", "branch_point", "grayed_asphalt",
        "grayed_lane", "grayed_marker", "sidewalk"]) ∧
      HasMesh meshes "asphalt" "bland_asphalt" ((usual f rg).flatMap d.asphalt) ∧
      HasMesh meshes "lane" "lane_haze" ((usual f rg).flatMap d.haze) ∧
      HasMesh meshes "marker" "marker_paint" ((usual f rg).flatMap d.markers) ∧
      HasMesh meshes "h_bounds" "h_bounds_haze" ((segmentsOf rg).flatMap d.hBounds) ∧
      HasMesh meshes "branch_point" "branch_point_glow" (drawn.flatMap fun b => b.faces f.branchPointHeight) ∧
      HasMesh meshes "grayed_asphalt" "grayed_bland_asphalt" ((gray f rg).flatMap d.asphalt) ∧
      HasMesh meshes "grayed_lane" "grayed_lane_haze" ((gray f rg).flatMap d.haze) ∧
      HasMesh meshes "grayed_marker" "grayed_marker_paint" ((gray f rg).flatMap d.markers) ∧
      HasMesh meshes "sidewalk" "sidewalk" [] := by
  intro d
  obtain ⟨w, hw, bw⟩ := walkJunctions_ok (d := d) hS hrg.tolerance hf hrg.segments
  obtain ⟨bm, drawn, hb, bb, hdrawn⟩ : ∃ (m : GeoMesh) (drawn : List Drawn),
      Returns (fun n => renderBranchPoints (env.at n) f rg) (m, drawn.map Drawn.center) ∧
      Built m (drawn.flatMap fun b => b.faces f.branchPointHeight) ∧ BranchPointsDrawn f rg drawn := by
    cases hd : f.drawBranchPoints with
    | false =>
      exact ⟨.empty, [], ⟨0, fun n _ => by simp [renderBranchPoints, hd]⟩, .new,
        ⟨fun _ => rfl, fun h => absurd h (by rw [hd]; decide), by simp, by simp⟩⟩
    | true =>
      obtain ⟨m, drawn, h1, h2, h3, h4, h5⟩ := branch_points_apart env f rg hf.elevation hf.height hd hrg.upright
      exact ⟨m, drawn, ⟨_, h1⟩, h2, ⟨fun h => absurd h (by rw [hd]; decide), fun _ => h3, h4, h5⟩⟩
  obtain ⟨y1, h1, n1, e1⟩ := material_exists (name := "bland_asphalt") (by simp [materials])
  obtain ⟨y2, h2, n2, e2⟩ := material_exists (name := "lane_haze") (by simp [materials])
  obtain ⟨y3, h3, n3, e3⟩ := material_exists (name := "marker_paint") (by simp [materials])
  obtain ⟨y4, h4, n4, e4⟩ := material_exists (name := "h_bounds_haze") (by simp [materials])
  obtain ⟨y5, h5, n5, e5⟩ := material_exists (name := "branch_point_glow") (by simp [materials])
  obtain ⟨y6, h6, n6, e6⟩ := material_exists (name := "grayed_bland_asphalt") (by simp [materials])
  obtain ⟨y7, h7, n7, e7⟩ := material_exists (name := "grayed_lane_haze") (by simp [materials])
  obtain ⟨y8, h8, n8, e8⟩ := material_exists (name := "grayed_marker_paint") (by simp [materials])
  obtain ⟨y9, h9, n9, e9⟩ := material_exists (name := "sidewalk") (by simp [materials])
  obtain ⟨N1, hw⟩ := hw
  obtain ⟨N2, hb⟩ := hb
  obtain ⟨k0, k1, k2, k3, k4, k5, k6, k7, k8, k9⟩ := nine (w.normal.asphalt, y1) (w.normal.lane, y2) (w.normal.marker, y3)
    (w.normal.hBounds, y4) (bm, y5) (w.grayedAsphalt, y6) (w.grayedLane, y7) (w.grayedMarker, y8) (Mesh.GeoMesh.empty, y9) _ rfl
  refine ⟨_, drawn, ⟨max N1 N2, fun n hn => buildMeshes_ok (hw n (le_of_max_le_left hn)) (hb n (le_of_max_le_right hn))
    h1 h2 h3 h4 h5 h6 h7 h8 h9⟩, hdrawn, k0, ?_⟩
  exact ⟨⟨_, _, k1, n1, e1, bw.normal.asphalt⟩, ⟨_, _, k2, n2, e2, bw.normal.lane⟩, ⟨_, _, k3, n3, e3, bw.normal.marker⟩,
    ⟨_, _, k4, n4, e4, bw.normal.hBounds⟩, ⟨_, _, k5, n5, e5, bb⟩, ⟨_, _, k6, n6, e6, bw.asphalt⟩,
    ⟨_, _, k7, n7, e7, bw.lane⟩, ⟨_, _, k8, n8, e8, bw.marker⟩, ⟨_, _, k9, n9, e9, .new⟩⟩

/-- C89.  Without a threshold simplification does nothing. -/
theorem no_simplification (env : Env) (f : Features) (h : f.simplifyMeshThreshold = 0) : Simplifies env f id :=
  fun m fs hm => ⟨m, by simp [simplifyMesh, h], hm⟩

/-- C89.  If no segments are highlighted, all segments are drawn as usual and none of them gray. -/
theorem none_highlighted (f : Features) (rg : RoadGeometry) (h : f.highlightedSegments = []) :
    usual f rg = segmentsOf rg ∧ gray f rg = [] := by
  refine ⟨?_, ?_⟩
  · unfold usual
    rw [List.filter_eq_self]
    intro a _
    simp [Highlighted, h]
  · unfold gray
    rw [List.filter_eq_nil_iff]
    intro a _
    simp [Highlighted, h]

/-- C89.  A segment whose first lane is null makes building the meshes undefined; one that is not part of a junction
makes it throw. -/
theorem build_meshes_bad_segment (env : Env) (f : Features) (rg : RoadGeometry) (seg : Segment)
    (h : rg.junctions.head? = some (some [some seg])) :
    (seg.tolerance = none → buildMeshes env f rg = .error (.err .throws)) ∧
    (seg.tolerance ≠ none → seg.lanes.head? = some none → buildMeshes env f rg = .error (.err .ub)) := by
  obtain ⟨rest, hr⟩ : ∃ rest, rg.junctions = some [some seg] :: rest := by
    rcases hj : rg.junctions with _ | ⟨j, rest⟩
    · rw [hj] at h; cases h
    · rw [hj] at h
      simp only [List.head?_cons, Option.some.injEq] at h
      exact ⟨rest, by rw [h]⟩
  have key : ∀ e, (∀ p, renderSegment env f seg p = .error e) → buildMeshes env f rg = .error e := by
    intro e he
    have : walkJunctions env f rg = .error e := by
      unfold walkJunctions
      rw [hr, List.foldlM_cons]
      have : ∀ w, walkSegment env f w (some seg) = .error e := by
        intro w
        simp only [walkSegment]
        split
        · simp only [he, bind, Except.bind]
        · simp only [he, bind, Except.bind]
      simp only [List.foldlM_cons, this, bind, Except.bind]
    simp only [buildMeshes, this, bind, Except.bind]
  refine ⟨fun ht => key _ fun p => by simp [renderSegment, ht], fun ht hl => key _ fun p => ?_⟩
  obtain ⟨t, ht⟩ := Option.ne_none_iff_exists'.1 ht
  rcases hls : seg.lanes with _ | ⟨l, ls⟩
  · rw [hls] at hl; cases hl
  · rw [hls] at hl
    simp only [List.head?_cons, Option.some.injEq] at hl
    subst hl
    simp [renderSegment, ht, hls]

/-! A road of two segments with a branch point. -/

/-- The road. -/
def bpRoad : RoadGeometry where
  junctions := [some [some ⟨"one", [some bpLane], some (1 / 100)⟩], none, some [none, some ⟨"two", [some bpLane, none], some (1 / 100)⟩]]
  branchPoints := [some bpStart, none]
  linearTolerance := 1 / 100
  laneById id := if id = "first" then some bpLane else none
  segmentById id := if id = "one" then some ⟨"one", [some bpLane], some (1 / 100)⟩ else none
  branchPointById id := if id = "start" then some bpStart else none

/-- The example road can be drawn. -/
theorem bpRoad_good : GoodRoad bpRoad := by
  refine ⟨by norm_num [bpRoad], ?_, ?_⟩
  · intro seg hseg
    have hl : GoodLane (1 / 100) bpLane := ⟨by norm_num [bpLane], rfl⟩
    have : seg = ⟨"one", [some bpLane], some (1 / 100)⟩ ∨ seg = ⟨"two", [some bpLane, none], some (1 / 100)⟩ := by
      simpa [segmentsOf, bpRoad] using hseg
    rcases this with rfl | rfl <;>
      exact ⟨rfl, by simp, fun l hl' => by simp [lanesOf] at hl'; rw [hl']; exact hl⟩
  · intro bp e hbp he
    have : bp = bpStart := by simpa [bpRoad] using hbp
    subst this
    have : e = ⟨bpLane, true⟩ := by
      have : (⟨bpLane, true⟩ : LaneEnd) = e := by simpa [bpStart] using he
      exact this.symm
    rw [this]
    exact bpLane_upright true

/-- With one highlighted segment, the other one is gray. -/
example : (usual { highlightedSegments := ["two"] } bpRoad).map (·.id) = ["two"] ∧
    (gray { highlightedSegments := ["two"] } bpRoad).map (·.id) = ["one"] := by decide +kernel

/-- The default features are good. -/
example : GoodFeatures {} := ⟨by norm_num, by norm_num, by norm_num⟩

end Maliput.Props
