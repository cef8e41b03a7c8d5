import Verif.Lemmas.BuildMeshes

set_option autoImplicit false

/-! Lemmas about `BuildMesh` and `BuildRoadGeometryMesh`. -/
namespace Maliput.GenerateObj

open Maliput.GenerateObj.Spec
open Maliput.RoadMesh (Lane Pos RBounds Srh SrhFace coverLane stripes markLaneEnds pickGridUnit pushFaces)
open Maliput.RouteGraph (Stop lift)
open Maliput.Mesh.Spec (Built)

theorem materialFromMesh_ok (t : MaterialType) :
    ∃ m, materialFromMesh t = .ok m ∧ m.name = materialName t ∧ m ∈ materials := by
  obtain ⟨m, h, h'⟩ := material_exists (name := materialName t) (by cases t <;> simp [materials, materialName])
  exact ⟨m, by cases t <;> exact h, h'⟩

theorem hBounds_ok {d : Drawing} (hS : Simplifies d.env d.f d.simplify) (ht : 0 < d.t)
    {l : Lane} (hl : GoodLane d.t l) :
    ∃ m', Returns (fun n => if d.f.drawElevationBounds then do
          let upper ← addFaces (d.env.at n) d.f l .empty (cover (d.env.at n) d.f l (gridOf d.f d.t l) false
            fun s r => (l.elevationBounds s r).max)
          addFaces (d.env.at n) d.f l upper (cover (d.env.at n) d.f l (gridOf d.f d.t l) false
            fun s r => (l.elevationBounds s r).min)
        else .ok .empty) m' ∧
      Built m' (if d.f.drawElevationBounds then
      d.simplify (sheet d.env d.f l (gridOf d.f d.t l) false fun s r => (l.elevationBounds s r).max) ++
      d.simplify (sheet d.env d.f l (gridOf d.f d.t l) false fun s r => (l.elevationBounds s r).min) else []) := by
  have hg := gridOf_pos d.f l ht
  refine returns_if (P := fun m' => Built m' (if d.f.drawElevationBounds then
      d.simplify (sheet d.env d.f l (gridOf d.f d.t l) false fun s r => (l.elevationBounds s r).max) ++
      d.simplify (sheet d.env d.f l (gridOf d.f d.t l) false fun s r => (l.elevationBounds s r).min) else [])) d.f.drawElevationBounds
      (fun h => ?_) (fun h => ⟨.empty, .const rfl, by simpa [h] using Built.new⟩)
  obtain ⟨m1, h1, b1⟩ := add_sheet hS ht hl hg (m := .empty) .new false fun s r => (l.elevationBounds s r).max
  obtain ⟨m2, h2, b2⟩ := add_sheet hS ht hl hg b1 false fun s r => (l.elevationBounds s r).min
  exact ⟨m2, h1.bind h2, by simpa [h] using b2⟩

theorem buildLaneMesh_ok {d : Drawing} (hS : Simplifies d.env d.f d.simplify) (ht : 0 < d.t) (hf : GoodFeatures d.f)
    {rg : RoadGeometry} {id : String} {l : Lane} (hid : rg.laneById id = some l) (hl : GoodLane d.t l) {t : MaterialType}
    {fs : List (List (Pos × Pos))} (hfs : d.ofLane l t = some fs) :
    ∃ m y, Returns (fun n => buildLaneMesh (d.env.at n) d.f rg id t) (m, y) ∧ y.name = materialName t ∧ y ∈ materials ∧
      Built m fs := by
  obtain ⟨y, hy, ny, my⟩ := materialFromMesh_ok t
  have hg := gridOf_pos d.f l ht
  have tail : ∀ {c : ℕ → Except Stop GeoMesh} {m : GeoMesh}, Returns c m →
      Returns (fun n => c n >>= fun mesh => lift (materialFromMesh t) >>= fun a => pure (mesh, a)) (m, y) := by
    intro c m h
    refine h.bind ?_
    rw [hy]
    exact .const rfl
  have hne : t ≠ .branchPointGlow := by rintro rfl; cases hfs
  have guard : throwUnless (decide (t ≠ .branchPointGlow)) = .ok () := by simp [throwUnless, hne]
  have start : ∀ {β : Type} (k : Unit → Except Stop β), (lift (throwUnless (decide (t ≠ .branchPointGlow))) >>= k) = k () := by
    intro β k
    rw [guard]
    rfl
  unfold buildLaneMesh
  simp only [start, hid]
  rw [hl.tolerance]
  cases t with
  | asphalt | grayedAsphalt =>
    cases hfs
    obtain ⟨m, h, b⟩ := add_sheet hS ht hl hg (m := .empty) .new false fun _ _ => 0
    exact ⟨m, y, tail h, ny, my, by simpa using b⟩
  | lane | grayedLane =>
    cases hfs
    obtain ⟨m, h, b⟩ := haze_ok hS ht hl hg (m := .empty) .new
    exact ⟨m, y, tail h, ny, my, by simpa using b⟩
  | marker | grayedMarker =>
    cases hfs
    obtain ⟨m, h, b⟩ := lane_marker_ok hS ht hf hl (m := .empty) .new
    exact ⟨m, y, tail h, ny, my, by simpa using b⟩
  | hBounds =>
    cases hfs
    obtain ⟨m, h, b⟩ := hBounds_ok hS ht hl
    exact ⟨m, y, tail h, ny, my, b⟩
  | branchPointGlow | sidewalk => cases hfs

theorem buildBranchPointMesh_ok {f : Features} (hf : GoodFeatures f) {rg : RoadGeometry} {id : String} {bp : BranchPoint}
    (hid : rg.branchPointById id = some bp) {e : LaneEnd} (he : (bp.aSide ++ bp.bSide).head? = some e) :
    ∃ m y, buildBranchPointMesh f rg id .branchPointGlow = .ok (m, y) ∧ y.name = "branch_point_glow" ∧ y ∈ materials ∧
      Built m (Drawn.faces f.branchPointHeight ⟨bp, e, f.branchPointElevation⟩) := by
  obtain ⟨y, hy, ny, my⟩ := materialFromMesh_ok .branchPointGlow
  obtain ⟨m1, h1, b1⟩ := drawBranch_ok hf.elevation hf.height e true (m := .empty) .new
  obtain ⟨m2, h2, b2⟩ := drawArrows_ok hf.elevation hf.height bp.aSide b1
  obtain ⟨m3, h3, b3⟩ := drawArrows_ok hf.elevation hf.height bp.bSide b2
  refine ⟨m3, y, ?_, ny, my, by simpa [Drawn.faces] using b3⟩
  simp [buildBranchPointMesh, throwUnless, hid, referenceEnd_ok he, h1, h2, h3, hy, bind, Except.bind, pure, Except.pure]

theorem buildSegmentMesh_ok {d : Drawing} (hS : Simplifies d.env d.f d.simplify) (ht : 0 < d.t)
    {rg : RoadGeometry} {id : String} {seg : Segment} (hid : rg.segmentById id = some seg) (hseg : GoodSegment d.t seg)
    (hne : seg.lanes ≠ []) {t : MaterialType} (hty : t = .asphalt ∨ t = .grayedAsphalt) :
    ∃ m y, Returns (fun n => buildSegmentMesh (d.env.at n) d.f rg id t) (m, y) ∧ y.name = materialName t ∧ y ∈ materials ∧
      Built m (d.asphalt seg) := by
  obtain ⟨y, hy, ny, my⟩ := materialFromMesh_ok t
  obtain ⟨sid, lanes, tol⟩ := seg
  obtain rfl : tol = some d.t := hseg.tolerance
  rcases lanes with _ | ⟨_ | l, ls⟩
  · exact absurd rfl hne
  · exact absurd rfl hseg.first
  have hl : GoodLane d.t l := hseg.lanes l (by simp [lanesOf])
  have guard : throwUnless (decide (t = .asphalt) || decide (t = .grayedAsphalt)) = .ok () := by
    simp only [throwUnless]
    rw [if_pos (by simpa using hty)]
  obtain ⟨m, h, b⟩ := add_sheet hS ht hl (gridOf_pos d.f l ht) (m := .empty) .new true fun _ _ => 0
  refine ⟨m, y, ?_, ny, my, by simpa [Drawing.asphalt, lanesOf] using b⟩
  unfold buildSegmentMesh
  have start : ∀ {β : Type} (k : Unit → Except Stop β),
      (lift (throwUnless (decide (t = .asphalt) || decide (t = .grayedAsphalt))) >>= k) = k () := by
    intro β k
    rw [guard]
    rfl
  simp only [start, hid]
  refine h.bind ?_
  rw [hy]
  exact .const rfl

/-! ### Maps of meshes -/

theorem Spec.Meshed.empty {α : Type} (key : α → String) (material : String) (faces : α → List (List (Pos × Pos))) :
    Meshed .empty key material faces [] := by
  refine ⟨fun k => ?_, by simp⟩
  simp [Map.has_iff, Map.get?_empty]

theorem Spec.Meshed.add {α : Type} {ms : Meshes} {key : α → String} {material : String} {faces : α → List (List (Pos × Pos))}
    {xs : List α} (h : Meshed ms key material faces xs) {x : α} {m : GeoMesh} {y : Material} (hn : y.name = material)
    (hy : y ∈ materials) (hb : Built m (faces x)) (hx : ∀ x' ∈ xs, key x' = key x → x' = x) :
    Meshed (ms.set (key x) (m, y)) key material faces (xs ++ [x]) := by
  refine ⟨fun k => ?_, fun x' hx' => ?_⟩
  · have hk := h.1 k
    rw [Map.has_iff] at hk ⊢
    rw [Map.get?_set]
    by_cases e : k = key x
    · subst e
      simp
    · simp only [e, if_false, hk, List.mem_append, List.mem_singleton]
      constructor
      · rintro ⟨z, hz, q⟩
        exact ⟨z, .inl hz, q⟩
      · rintro ⟨z, hz | rfl, q⟩
        · exact ⟨z, hz, q⟩
        · exact absurd q e
  · by_cases e : key x' = key x
    · have : x' = x := by
        rcases List.mem_append.1 hx' with q | q
        · exact hx x' q e
        · simpa using q
      subst this
      exact ⟨m, y, by rw [Map.get?_set]; simp, hn, hy, hb⟩
    · have hx'' : x' ∈ xs := by
        rcases List.mem_append.1 hx' with q | q
        · exact q
        · exact absurd (by rw [List.mem_singleton.1 q]) e
      obtain ⟨m', y', k1, k2, k3, k4⟩ := h.2 x' hx''
      refine ⟨m', y', ?_, k2, k3, k4⟩
      rw [Map.get?_set]
      simpa [e] using k1

/-! ### The tour -/

/-- Lanes that are found by their ids. -/
def Found (rg : RoadGeometry) (l : Lane) : Prop := rg.laneById l.id = some l

/-- What the tour holds. -/
structure TourHolds (d : Drawing) (t : Tour) (segs : List Segment) (normal gray : List Lane) : Prop where
  walk : WalkHolds d t.walk segs
  lane : Meshed t.laneLane (fun l : Lane => "lane_" ++ l.id) "lane_haze" (fun l => d.laneHaze (gridOf d.f d.t l) l) normal
  marker : Meshed t.laneMarker (fun l : Lane => "marker_" ++ l.id) "marker_paint" d.laneMarkers normal
  grayedLane : Meshed t.laneGrayedLane (fun l : Lane => "grayed_lane_" ++ l.id) "grayed_lane_haze"
    (fun l => d.laneHaze (gridOf d.f d.t l) l) gray
  grayedMarker : Meshed t.laneGrayedMarker (fun l : Lane => "grayed_marker_" ++ l.id) "grayed_marker_paint" d.laneMarkers gray

theorem append_inj (p : String) {a b : String} (h : p ++ a = p ++ b) : a = b := by
  have := congrArg String.toList h
  exact String.toList_injective (by simpa using this)

theorem found_inj {rg : RoadGeometry} {p : String} {l l' : Lane} (h : Found rg l) (h' : Found rg l') (e : p ++ l'.id = p ++ l.id) :
    l' = l := by
  have := append_inj p e
  unfold Found at h h'
  rw [this, h] at h'
  exact (Option.some.inj h').symm

theorem tourLane_ok {d : Drawing} (hS : Simplifies d.env d.f d.simplify) (ht : 0 < d.t) (hf : GoodFeatures d.f)
    {rg : RoadGeometry} {l : Lane} (hl : GoodLane d.t l) (hid : Found rg l) (nrm : Bool) {t : Tour} {segs : List Segment}
    {normal gray : List Lane} (h : TourHolds d t segs normal gray) (h1 : ∀ l ∈ normal, Found rg l) (h2 : ∀ l ∈ gray, Found rg l) :
    ∃ t', Returns (fun n => tourLane (d.env.at n) d.f rg nrm t (some l)) t' ∧
      TourHolds d t' segs (normal ++ if nrm then [l] else []) (gray ++ if nrm then [] else [l]) := by
  cases nrm with
  | true =>
    obtain ⟨m1, y1, r1, n1, e1, b1⟩ := buildLaneMesh_ok hS ht hf hid hl (t := .lane) rfl
    obtain ⟨m2, y2, r2, n2, e2, b2⟩ := buildLaneMesh_ok hS ht hf hid hl (t := .marker) rfl
    refine ⟨{ t with laneLane := t.laneLane.set ("lane_" ++ l.id) (m1, y1),
                     laneMarker := t.laneMarker.set ("marker_" ++ l.id) (m2, y2) }, r1.bind (r2.bind (.const rfl)), ?_⟩
    refine ⟨h.walk, h.lane.add n1 e1 b1 fun l' hl' e => found_inj hid (h1 l' hl') e,
      h.marker.add n2 e2 b2 fun l' hl' e => found_inj hid (h1 l' hl') e, ?_, ?_⟩
    · simpa using h.grayedLane
    · simpa using h.grayedMarker
  | false =>
    obtain ⟨m1, y1, r1, n1, e1, b1⟩ := buildLaneMesh_ok hS ht hf hid hl (t := .grayedLane) rfl
    obtain ⟨m2, y2, r2, n2, e2, b2⟩ := buildLaneMesh_ok hS ht hf hid hl (t := .grayedMarker) rfl
    refine ⟨{ t with laneGrayedLane := t.laneGrayedLane.set ("grayed_lane_" ++ l.id) (m1, y1),
                     laneGrayedMarker := t.laneGrayedMarker.set ("grayed_marker_" ++ l.id) (m2, y2) },
      r1.bind (r2.bind (.const rfl)), ?_⟩
    refine ⟨h.walk, ?_, ?_, h.grayedLane.add n1 e1 b1 fun l' hl' e => found_inj hid (h2 l' hl') e,
      h.grayedMarker.add n2 e2 b2 fun l' hl' e => found_inj hid (h2 l' hl') e⟩
    · simpa using h.lane
    · simpa using h.marker

/-- The lanes of the segments that are drawn as usual. -/
def normalLanes (f : Features) (segs : List Segment) : List Lane := (segs.filter fun s => Highlighted f s).flatMap lanesOf

/-- The lanes of the other segments. -/
def grayLanes (f : Features) (segs : List Segment) : List Lane := (segs.filter fun s => ¬ Highlighted f s).flatMap lanesOf

theorem tourSegment_ok {d : Drawing} (hS : Simplifies d.env d.f d.simplify) (ht : 0 < d.t) (hf : GoodFeatures d.f)
    {rg : RoadGeometry} {seg : Segment} (hseg : GoodSegment d.t seg) (hnull : none ∉ seg.lanes)
    (hid : ∀ l ∈ lanesOf seg, Found rg l) {t : Tour} {segs : List Segment}
    (h : TourHolds d t segs (normalLanes d.f segs) (grayLanes d.f segs)) (hsegs : ∀ s ∈ segs, ∀ l ∈ lanesOf s, Found rg l) :
    ∃ t', Returns (fun n => tourSegment (d.env.at n) d.f rg t (some seg)) t' ∧
      TourHolds d t' (segs ++ [seg]) (normalLanes d.f (segs ++ [seg])) (grayLanes d.f (segs ++ [seg])) := by
  obtain ⟨w, hw, bw⟩ := walkSegment_ok hS ht hf hseg h.walk
  have h' : TourHolds d { t with walk := w } (segs ++ [seg]) (normalLanes d.f segs) (grayLanes d.f segs) :=
    ⟨bw, h.lane, h.marker, h.grayedLane, h.grayedMarker⟩
  have hn : ∀ l ∈ normalLanes d.f segs, Found rg l := by
    intro l hl
    obtain ⟨s, hs, q⟩ := List.mem_flatMap.1 hl
    exact hsegs s (List.mem_filter.1 hs).1 l q
  have hg : ∀ l ∈ grayLanes d.f segs, Found rg l := by
    intro l hl
    obtain ⟨s, hs, q⟩ := List.mem_flatMap.1 hl
    exact hsegs s (List.mem_filter.1 hs).1 l q
  have hlane : ∀ l, some l ∈ seg.lanes → l ∈ lanesOf seg := fun l hl => List.mem_filterMap.2 ⟨some l, hl, rfl⟩
  obtain ⟨t', r, b⟩ := Returns.foldlM (step := fun n => tourLane (d.env.at n) d.f rg (renderedNormally seg.id d.f.highlightedSegments))
    (fun t done => (∀ l, some l ∈ done → some l ∈ seg.lanes) ∧ TourHolds d t (segs ++ [seg])
      (normalLanes d.f segs ++ if Highlighted d.f seg then done.filterMap id else [])
      (grayLanes d.f segs ++ if Highlighted d.f seg then [] else done.filterMap id)) seg.lanes (by
      intro t done ol hol ⟨hd, ht'⟩
      rcases ol with _ | l
      · exact absurd hol hnull
      · have hdone : ∀ l ∈ done.filterMap id, Found rg l := by
          intro l hl
          obtain ⟨ol, q, e⟩ := List.mem_filterMap.1 hl
          simp only [id] at e
          subst e
          exact hid l (hlane l (hd l q))
        obtain ⟨t', r, b⟩ := tourLane_ok hS ht hf (hseg.lanes l (hlane l hol)) (hid l (hlane l hol))
          (renderedNormally seg.id d.f.highlightedSegments) ht'
          (by
            intro l hl
            rcases List.mem_append.1 hl with q | q
            · exact hn l q
            · split at q
              · exact hdone l q
              · cases q)
          (by
            intro l hl
            rcases List.mem_append.1 hl with q | q
            · exact hg l q
            · split at q
              · cases q
              · exact hdone l q)
        refine ⟨t', r, ?_, ?_⟩
        · intro l' hl'
          rcases List.mem_append.1 hl' with q | q
          · exact hd l' q
          · rw [List.mem_singleton.1 q]
            exact hol
        · rw [renderedNormally_iff] at b
          by_cases hh : Highlighted d.f seg
          · simpa [hh] using b
          · simpa [hh] using b) (s := { t with walk := w }) (pre := []) ⟨by simp, by simpa using h'⟩
  refine ⟨t', hw.bind r, ?_⟩
  have e1 : normalLanes d.f (segs ++ [seg]) = normalLanes d.f segs ++ if Highlighted d.f seg then seg.lanes.filterMap id else [] := by
    by_cases hh : Highlighted d.f seg <;> simp [normalLanes, hh, lanesOf]
  have e2 : grayLanes d.f (segs ++ [seg]) = grayLanes d.f segs ++ if Highlighted d.f seg then [] else seg.lanes.filterMap id := by
    by_cases hh : Highlighted d.f seg <;> simp [grayLanes, hh, lanesOf]
  rw [e1, e2]
  simpa using b.2

theorem tour_ok {d : Drawing} (hS : Simplifies d.env d.f d.simplify) (ht : 0 < d.t) (hf : GoodFeatures d.f)
    {rg : RoadGeometry} (hrg : ∀ seg ∈ segmentsOf rg, GoodSegment d.t seg) (hc : Complete rg) :
    ∃ t, Returns (fun n => tourJunctions (d.env.at n) d.f rg) t ∧
      TourHolds d t (segmentsOf rg) (normalLanes d.f (segmentsOf rg)) (grayLanes d.f (segmentsOf rg)) := by
  have hmem : ∀ j ∈ rg.junctions, ∀ segs, j = some segs → ∀ s, some s ∈ segs → s ∈ segmentsOf rg := by
    intro j hj segs hs s h
    simp only [segmentsOf, List.mem_filterMap, List.mem_flatten, id]
    exact ⟨some s, ⟨segs, ⟨j, hj, hs⟩, h⟩, rfl⟩
  obtain ⟨t, h1, h2⟩ := Returns.foldlM (step := fun n (t : Tour) (junction : Option (List (Option Segment))) => match junction with
      | none => .error (.err .ub)
      | some segments => segments.foldlM (tourSegment (d.env.at n) d.f rg) t)
    (fun t pre => ∃ segs, segs = ((pre.filterMap id).flatten).filterMap id ∧ (∀ s ∈ segs, s ∈ segmentsOf rg) ∧
      TourHolds d t segs (normalLanes d.f segs) (grayLanes d.f segs)) rg.junctions (by
      rintro t pre j hj ⟨segs0, e0, m0, hw⟩
      rcases j with _ | segs
      · exact absurd hj hc.junctions
      · obtain ⟨t', c1, segs1, e1, m1, c2⟩ := Returns.foldlM (step := fun n => tourSegment (d.env.at n) d.f rg)
          (fun t done => ∃ segs1, segs1 = segs0 ++ done.filterMap id ∧ (∀ s ∈ segs1, s ∈ segmentsOf rg) ∧
            TourHolds d t segs1 (normalLanes d.f segs1) (grayLanes d.f segs1)) segs (by
            rintro t done s hs ⟨segs1, e1, m1, hw⟩
            rcases s with _ | s
            · exact absurd hs (hc.segments _ hj)
            · have hs' := hmem _ hj _ rfl s hs
              obtain ⟨t', r1, r2⟩ := tourSegment_ok hS ht hf (hrg s hs') (hc.lanes s hs') (hc.laneById s hs') hw
                (fun s' q => hc.laneById s' (m1 s' q))
              refine ⟨t', r1, segs1 ++ [s], by simp [e1], ?_, r2⟩
              intro s' q
              rcases List.mem_append.1 q with q | q
              · exact m1 s' q
              · rw [List.mem_singleton.1 q]
                exact hs') (s := t) (pre := []) ⟨segs0, by simp, m0, hw⟩
        exact ⟨t', c1, segs1, by simpa [e0] using e1, m1, c2⟩)
    (s := ⟨.new, .empty, .empty, .empty, .empty⟩) (pre := []) ⟨[], rfl, by simp, by
      refine ⟨⟨⟨?_, ?_, ?_, ?_⟩, ?_, ?_, ?_⟩, .empty _ _ _, .empty _ _ _, .empty _ _ _, .empty _ _ _⟩ <;> exact .new⟩
  obtain ⟨segs, e, -, hw⟩ := h2
  obtain rfl : segs = segmentsOf rg := by simpa [segmentsOf] using e
  exact ⟨t, h1, hw⟩

end Maliput.GenerateObj
