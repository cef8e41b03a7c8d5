import Verif.Lemmas.BranchPoints
import Verif.Lemmas.Map
import Verif.Props.Mesh
import Verif.Props.RoadMesh

set_option autoImplicit false

/-! Lemmas about `BuildMeshes`. -/
namespace Maliput.GenerateObj

open Maliput.GenerateObj.Spec
open Maliput.RoadMesh (Lane Pos RBounds Srh SrhFace coverLane stripes markLaneEnds pickGridUnit pushFaces)
open Maliput.RouteGraph (Stop lift)
open Maliput.Mesh.Spec (Built)

theorem Spec.Returns.bind {α β : Type} {c : ℕ → Except Stop α} {k : ℕ → α → Except Stop β} {a : α} {b : β}
    (h : Returns c a) (hk : Returns (fun n => k n a) b) : Returns (fun n => c n >>= k n) b := by
  obtain ⟨N, h⟩ := h
  obtain ⟨M, hk⟩ := hk
  refine ⟨max N M, fun n hn => ?_⟩
  show c n >>= k n = _
  rw [h n (le_of_max_le_left hn)]
  exact hk n (le_of_max_le_right hn)

theorem Spec.Returns.const {α : Type} {c : Except Stop α} {a : α} (h : c = .ok a) : Returns (fun _ => c) a := ⟨0, fun _ _ => h⟩

theorem Spec.Returns.unique {α : Type} {c : ℕ → Except Stop α} {a b : α} (h : Returns c a) (h' : Returns c b) : a = b := by
  obtain ⟨N, h⟩ := h
  obtain ⟨M, h'⟩ := h'
  have h1 := h (max N M) (le_max_left _ _)
  have h2 := h' (max N M) (le_max_right _ _)
  rw [h1] at h2
  exact Except.ok.inj h2

theorem facesOf_eq {c : ℕ → Except Stop (List SrhFace)} {a : List SrhFace} (h : Returns c a) : facesOf c = a := by
  have h' : ∃ a, Returns c a := ⟨a, h⟩
  unfold facesOf
  rw [dif_pos h']
  exact h'.choose_spec.unique h

theorem returns_facesOf {c : ℕ → Except Stop (List SrhFace)} {a : List SrhFace} (h : Returns c a) :
    Returns c (facesOf c) := by rw [facesOf_eq h]; exact h

/-- A fold whose steps return. -/
theorem Spec.Returns.foldlM {α σ : Type} {step : ℕ → σ → α → Except Stop σ} (Inv : σ → List α → Prop) (l : List α)
    (hstep : ∀ s pre x, x ∈ l → Inv s pre → ∃ s', Returns (fun n => step n s x) s' ∧ Inv s' (pre ++ [x])) :
    ∀ {s : σ} {pre : List α}, Inv s pre → ∃ s', Returns (fun n => l.foldlM (step n) s) s' ∧ Inv s' (pre ++ l) := by
  induction l with
  | nil => intro s pre h; exact ⟨s, .const rfl, by simpa using h⟩
  | cons x l ih =>
    intro s pre h
    obtain ⟨s1, h1, h2⟩ := hstep s pre x (by simp) h
    obtain ⟨s2, h3, h4⟩ := ih (fun s pre y hy => hstep s pre y (by simp [hy])) h2
    refine ⟨s2, ?_, by simpa using h4⟩
    simp only [List.foldlM_cons]
    exact h1.bind h3

theorem placed_pushed (l : Lane) (fs : List SrhFace) {m : GeoMesh} {gs : List (List (Pos × Pos))} (h : Built m gs) :
    ∃ m', pushFaces l m fs = .ok m' ∧ Built m' (gs ++ placed l fs) := Props.lane_faces_pushed l fs m gs h

theorem addFacesFrom_built {m o : GeoMesh} {fs fo : List (List (Pos × Pos))} (h : Built m fs) (ho : Built o fo) :
    ∃ m', m.addFacesFrom o = .ok m' ∧ Built m' (fs ++ fo) := by
  obtain ⟨-, m', h1⟩ := Props.mesh_operations_defined h ho ⟨[], []⟩ rfl
  exact ⟨m', h1, .add h ho h1⟩

/-- The environment with another bound. -/
abbrev Env.at (env : Env) (n : ℕ) : Env := { env with bound := n }

theorem addFaces_ok {env : Env} {f : Features} {simplify : List (List (Pos × Pos)) → List (List (Pos × Pos))}
    (hS : Simplifies env f simplify) (l : Lane) {m : GeoMesh} {fs : List (List (Pos × Pos))} (hm : Built m fs)
    {c : ℕ → Except Stop (List SrhFace)} {a : List SrhFace} (hc : Returns c a) :
    ∃ m', Returns (fun n => addFaces (env.at n) f l m (c n)) m' ∧ Built m' (fs ++ simplify (placed l (facesOf c))) := by
  rw [facesOf_eq hc]
  obtain ⟨new, h1, h2⟩ := placed_pushed l a (m := .empty) .new
  obtain ⟨new', h3, h4⟩ := hS new _ h2
  obtain ⟨m', h5, h6⟩ := addFacesFrom_built hm h4
  refine ⟨m', ?_, by simpa using h6⟩
  unfold addFaces
  refine hc.bind ⟨0, fun n _ => ?_⟩
  have h3' : simplifyMesh (env.at n) new f = .ok new' := h3
  simp only [h1, h3', h5, lift, bind, Except.bind]

theorem coverLane_returns (env : Env) (f : Features) {l : Lane} {t g : ℚ} (ht : 0 < t) (hl : GoodLane t l) (hg : 0 < g)
    (seg : Bool) (elevation : ℚ → ℚ → ℚ) :
    ∃ a, Returns (fun n => coverLane env.dist n l g seg elevation f.offGridMeshGeneration) a := by
  rcases hb : f.offGridMeshGeneration
  · obtain ⟨_, fss, N, -, h, -⟩ := Props.precise_mesh_faces env.dist l g seg elevation hg (by rw [hl.tolerance]; exact ht.le) hl.length
    exact ⟨_, N, h⟩
  · obtain ⟨_, fss, N, -, h, -⟩ := Props.optimized_mesh_faces env.dist l g seg elevation hg hl.length
    exact ⟨_, N, h⟩

theorem pick_pos (f : Features) (l : Lane) {t : ℚ} (ht : 0 < t) : 0 < pickGridUnit l f.maxGridUnit f.minGridResolution t :=
  (Props.pick_grid_unit_range l _ _ t).2.2 ht

theorem baseGridUnit_eq (f : Features) (l : Lane) (t : ℚ) : baseGridUnit f l t = gridOf f t l := rfl

theorem gridOf_pos (f : Features) (l : Lane) {t : ℚ} (ht : 0 < t) : 0 < gridOf f t l := by
  unfold gridOf
  split
  · exact ht
  · exact pick_pos f l ht

/-- A sheet is added. -/
theorem add_sheet {env : Env} {f : Features} {simplify : List (List (Pos × Pos)) → List (List (Pos × Pos))}
    (hS : Simplifies env f simplify) {l : Lane} {t g : ℚ} (ht : 0 < t) (hl : GoodLane t l) (hg : 0 < g) {m : GeoMesh}
    {fs : List (List (Pos × Pos))} (hm : Built m fs) (seg : Bool) (elevation : ℚ → ℚ → ℚ) :
    ∃ m', Returns (fun n => addFaces (env.at n) f l m (cover (env.at n) f l g seg elevation)) m' ∧
      Built m' (fs ++ simplify (sheet env f l g seg elevation)) := by
  obtain ⟨a, ha⟩ := coverLane_returns env f ht hl hg seg elevation
  exact addFaces_ok hS l hm ha

theorem add_stripes {env : Env} {f : Features} {simplify : List (List (Pos × Pos)) → List (List (Pos × Pos))}
    (hS : Simplifies env f simplify) {l : Lane} {t : ℚ} (ht : 0 < t) (hl : GoodLane t l) (hf : 0 ≤ f.stripeWidth) {m : GeoMesh}
    {fs : List (List (Pos × Pos))} (hm : Built m fs) :
    ∃ m', Returns (fun n => addFaces (env.at n) f l m (stripes n l (pickGridUnit l f.maxGridUnit f.minGridResolution t)
        f.stripeElevation f.stripeWidth)) m' ∧ Built m' (fs ++ simplify (laneStripes f t l)) := by
  obtain ⟨_, fss, N, -, h, -⟩ := Props.stripes_faces l _ f.stripeElevation _ (pick_pos f l ht)
    (by rw [hl.tolerance]; exact ht.le) hf hl.length
  exact addFaces_ok hS l hm ⟨N, h⟩

theorem add_arrows {env : Env} {f : Features} {simplify : List (List (Pos × Pos)) → List (List (Pos × Pos))}
    (hS : Simplifies env f simplify) {l : Lane} {t : ℚ} (ht : 0 < t) (hl : GoodLane t l) {m : GeoMesh}
    {fs : List (List (Pos × Pos))} (hm : Built m fs) :
    ∃ m', Returns (fun n => addFaces (env.at n) f l m
        (lift (markLaneEnds l (pickGridUnit l f.maxGridUnit f.minGridResolution t) f.arrowElevation))) m' ∧
      Built m' (fs ++ simplify (laneArrows f t l)) := by
  obtain ⟨a, b, h, -⟩ := Props.mark_lane_ends_faces l _ f.arrowElevation (pick_pos f l ht)
    (by rw [hl.tolerance]; exact ht.le)
  have hr : Returns (fun _ => lift (markLaneEnds l (pickGridUnit l f.maxGridUnit f.minGridResolution t) f.arrowElevation))
      (a ++ b) := .const (by rw [h]; rfl)
  exact addFaces_ok hS l hm hr

/-- An optional step. -/
theorem returns_if {α : Type} (b : Bool) {c c' : ℕ → Except Stop α} {P : α → Prop} (h : b = true → ∃ a, Returns c a ∧ P a)
    (h' : b = false → ∃ a, Returns c' a ∧ P a) : ∃ a, Returns (fun n => if b then c n else c' n) a ∧ P a := by
  cases b
  · simpa using h' rfl
  · simpa using h rfl

/-- What the meshes hold. -/
structure PartsHold (p : Parts) (asphalt lane marker hBounds : List (List (Pos × Pos))) : Prop where
  asphalt : Built p.asphalt asphalt
  lane : Built p.lane lane
  marker : Built p.marker marker
  hBounds : Built p.hBounds hBounds

theorem lane_marker_ok {d : Drawing} (hS : Simplifies d.env d.f d.simplify) (ht : 0 < d.t) (hf : GoodFeatures d.f)
    {l : Lane} (hl : GoodLane d.t l) {m : GeoMesh} {fs : List (List (Pos × Pos))} (hm : Built m fs) :
    ∃ m', Returns (fun n => do
      let marker ← (if d.f.drawStripes then
        addFaces (d.env.at n) d.f l m (stripes n l (pickGridUnit l d.f.maxGridUnit d.f.minGridResolution d.t)
          d.f.stripeElevation d.f.stripeWidth) else .ok m)
      (if d.f.drawArrows then
        addFaces (d.env.at n) d.f l marker (lift (markLaneEnds l
          (pickGridUnit l d.f.maxGridUnit d.f.minGridResolution d.t) d.f.arrowElevation)) else .ok marker)) m' ∧
      Built m' (fs ++ d.laneMarkers l) := by
  obtain ⟨m1, h1, b1⟩ := returns_if (P := fun m' => Built m' (fs ++ if d.f.drawStripes then d.simplify (laneStripes d.f d.t l) else []))
    d.f.drawStripes
    (c := fun n => addFaces (d.env.at n) d.f l m (stripes n l (pickGridUnit l d.f.maxGridUnit d.f.minGridResolution d.t)
        d.f.stripeElevation d.f.stripeWidth)) (c' := fun _ => .ok m)
    (fun h => by simpa only [h, if_true] using add_stripes hS ht hl hf.stripeWidth hm)
    (fun h => ⟨m, .const rfl, by simpa [h] using hm⟩)
  obtain ⟨m2, h2, b2⟩ := returns_if (P := fun m' => Built m' ((fs ++ if d.f.drawStripes then d.simplify (laneStripes d.f d.t l) else []) ++
      if d.f.drawArrows then d.simplify (laneArrows d.f d.t l) else []))
    d.f.drawArrows
    (c := fun n => addFaces (d.env.at n) d.f l m1 (lift (markLaneEnds l
          (pickGridUnit l d.f.maxGridUnit d.f.minGridResolution d.t) d.f.arrowElevation))) (c' := fun _ => .ok m1)
    (fun h => by simpa only [h, if_true] using add_arrows hS ht hl b1)
    (fun h => ⟨m1, .const rfl, by simpa [h] using b1⟩)
  exact ⟨m2, h1.bind h2, by simpa [Drawing.laneMarkers, List.append_assoc] using b2⟩

theorem haze_ok {d : Drawing} (hS : Simplifies d.env d.f d.simplify) (ht : 0 < d.t)
    {l : Lane} (hl : GoodLane d.t l) {g : ℚ} (hg : 0 < g) {m : GeoMesh} {fs : List (List (Pos × Pos))} (hm : Built m fs) :
    ∃ m', Returns (fun n => if d.f.drawLaneHaze then
        addFaces (d.env.at n) d.f l m (cover (d.env.at n) d.f l g false fun _ _ => d.f.laneHazeElevation) else .ok m) m' ∧
      Built m' (fs ++ d.laneHaze g l) :=
  returns_if (P := fun m' => Built m' (fs ++ d.laneHaze g l)) d.f.drawLaneHaze
    (fun h => by simpa only [Drawing.laneHaze, h, if_true] using add_sheet hS ht hl hg hm false fun _ _ => d.f.laneHazeElevation)
    (fun h => ⟨m, .const rfl, by simpa [Drawing.laneHaze, h] using hm⟩)

theorem renderLane_ok {d : Drawing} (hS : Simplifies d.env d.f d.simplify) (ht : 0 < d.t) (hf : GoodFeatures d.f)
    {ol : Option Lane} (hl : ∀ l ∈ ol, GoodLane d.t l) {g : ℚ} (hg : 0 < g) {p : Parts}
    {a la ma hb : List (List (Pos × Pos))} (hp : PartsHold p a la ma hb) :
    ∃ p', Returns (fun n => renderLane (d.env.at n) d.f d.t g p ol) p' ∧
      PartsHold p' a (la ++ ol.toList.flatMap (d.laneHaze g)) (ma ++ ol.toList.flatMap d.laneMarkers) hb := by
  rcases ol with _ | l
  · exact ⟨p, .const rfl, by simpa using hp⟩
  · have hl := hl l rfl
    obtain ⟨m1, h1, b1⟩ := haze_ok hS ht hl hg hp.lane
    obtain ⟨m2, h2, b2⟩ := lane_marker_ok hS ht hf hl hp.marker
    refine ⟨{ p with lane := m1, marker := m2 }, ?_, ⟨hp.asphalt, by simpa using b1, by simpa using b2, hp.hBounds⟩⟩
    unfold renderLane
    refine h1.bind ?_
    have := h2.bind (k := fun _ marker => (pure { p with lane := m1, marker := marker } : Except Stop Parts)) (.const rfl)
    simpa only [bind_assoc] using this

theorem lanesOf_cons (seg : Segment) {l : Lane} {ls : List (Option Lane)} (h : seg.lanes = some l :: ls) :
    lanesOf seg = l :: ls.filterMap id := by simp [lanesOf, h]

theorem renderSegment_ok {d : Drawing} (hS : Simplifies d.env d.f d.simplify) (ht : 0 < d.t) (hf : GoodFeatures d.f)
    {seg : Segment} (hseg : GoodSegment d.t seg) {p : Parts} {a la ma hb : List (List (Pos × Pos))}
    (hp : PartsHold p a la ma hb) :
    ∃ p', Returns (fun n => renderSegment (d.env.at n) d.f seg p) p' ∧
      PartsHold p' (a ++ d.asphalt seg) (la ++ d.haze seg) (ma ++ d.markers seg) (hb ++ d.hBounds seg) := by
  unfold renderSegment
  rw [hseg.tolerance]
  dsimp only
  rcases hls : seg.lanes with _ | ⟨_ | l0, ls⟩
  · refine ⟨p, .const rfl, ?_⟩
    have : lanesOf seg = [] := by simp [lanesOf, hls]
    simpa [Drawing.asphalt, Drawing.haze, Drawing.markers, Drawing.hBounds, this] using hp
  · exact absurd (by rw [hls]; rfl) hseg.first
  · have e := lanesOf_cons seg hls
    have hl0 : GoodLane d.t l0 := hseg.lanes l0 (by rw [e]; simp)
    have hg := gridOf_pos d.f l0 ht
    dsimp only
    obtain ⟨m1, h1, b1⟩ := add_sheet hS ht hl0 hg hp.asphalt true fun _ _ => 0
    obtain ⟨m2, h2, b2⟩ : ∃ m', Returns (fun n => if d.f.drawElevationBounds then (do
        let upper ← addFaces (d.env.at n) d.f l0 p.hBounds (cover (d.env.at n) d.f l0 (gridOf d.f d.t l0) true
          fun s r => (l0.elevationBounds s r).max)
        addFaces (d.env.at n) d.f l0 upper (cover (d.env.at n) d.f l0 (gridOf d.f d.t l0) true
          fun s r => (l0.elevationBounds s r).min)) else .ok p.hBounds) m' ∧ Built m' (hb ++ d.hBounds seg) := by
      refine returns_if _ (fun h => ?_) (fun h => ⟨_, .const rfl, by simpa [Drawing.hBounds, e, h] using hp.hBounds⟩)
      obtain ⟨u, hu, bu⟩ := add_sheet hS ht hl0 hg hp.hBounds true fun s r => (l0.elevationBounds s r).max
      obtain ⟨v, hv, bv⟩ := add_sheet hS ht hl0 hg bu true fun s r => (l0.elevationBounds s r).min
      exact ⟨v, hu.bind hv, by simpa [Drawing.hBounds, e, h] using bv⟩
    obtain ⟨p', h3, b3⟩ := Returns.foldlM (step := fun n => renderLane (d.env.at n) d.f d.t (gridOf d.f d.t l0))
      (fun p pre => PartsHold p (a ++ d.asphalt seg)
        (la ++ (pre.filterMap id).flatMap (d.laneHaze (gridOf d.f d.t l0))) (ma ++ (pre.filterMap id).flatMap d.laneMarkers)
        (hb ++ d.hBounds seg)) (some l0 :: ls) (by
        intro q pre x hx hq
        obtain ⟨q', c1, c2⟩ := renderLane_ok hS ht hf (ol := x) (fun l hl => hseg.lanes l (by
          rw [lanesOf, hls, List.mem_filterMap]
          exact ⟨x, hx, by rw [hl]; rfl⟩)) hg hq
        refine ⟨q', c1, ?_⟩
        rcases x with _ | x <;> simpa [List.filterMap_append] using c2)
      (s := { p with asphalt := m1, hBounds := m2 }) (pre := []) ⟨by simpa [Drawing.asphalt, e] using b1, by simpa using hp.lane,
        by simpa using hp.marker, b2⟩
    refine ⟨p', ?_, ?_⟩
    · refine h1.bind (h2.bind ?_)
      exact h3
    · have e' : lanesOf seg = (some l0 :: ls).filterMap id := by rw [lanesOf, hls]
      have e2 : d.haze seg = (lanesOf seg).flatMap (d.laneHaze (gridOf d.f d.t l0)) := by
        rw [e]; simp only [Drawing.haze, e]
      rw [e2, Drawing.markers, e']
      simpa using b3

theorem renderedNormally_iff (f : Features) (seg : Segment) :
    renderedNormally seg.id f.highlightedSegments = decide (Highlighted f seg) := by
  have key : renderedNormally seg.id f.highlightedSegments = true ↔ Highlighted f seg := by
    unfold renderedNormally Highlighted
    rcases h : f.highlightedSegments with _ | ⟨x, xs⟩
    · simp
    · simp [beq_iff_eq]
  by_cases h : Highlighted f seg
  · simp [h, key.2 h]
  · simp only [h, decide_false]
    exact Bool.eq_false_iff.2 fun hh => h (key.1 hh)

/-- What the walk holds. -/
structure WalkHolds (d : Drawing) (w : Walk) (segs : List Segment) : Prop where
  normal : PartsHold w.normal ((segs.filter fun s => Highlighted d.f s).flatMap d.asphalt)
    ((segs.filter fun s => Highlighted d.f s).flatMap d.haze) ((segs.filter fun s => Highlighted d.f s).flatMap d.markers)
    (segs.flatMap d.hBounds)
  asphalt : Built w.grayedAsphalt ((segs.filter fun s => ¬ Highlighted d.f s).flatMap d.asphalt)
  lane : Built w.grayedLane ((segs.filter fun s => ¬ Highlighted d.f s).flatMap d.haze)
  marker : Built w.grayedMarker ((segs.filter fun s => ¬ Highlighted d.f s).flatMap d.markers)

theorem walkSegment_ok {d : Drawing} (hS : Simplifies d.env d.f d.simplify) (ht : 0 < d.t) (hf : GoodFeatures d.f)
    {seg : Segment} (hseg : GoodSegment d.t seg) {w : Walk} {segs : List Segment} (hw : WalkHolds d w segs) :
    ∃ w', Returns (fun n => walkSegment (d.env.at n) d.f w (some seg)) w' ∧ WalkHolds d w' (segs ++ [seg]) := by
  unfold walkSegment
  simp only [renderedNormally_iff, decide_eq_true_eq]
  by_cases h : Highlighted d.f seg
  · simp only [h, if_true]
    obtain ⟨p, h1, b⟩ := renderSegment_ok hS ht hf hseg hw.normal
    refine ⟨{ w with normal := p }, h1.bind (.const rfl), ?_⟩
    exact ⟨⟨by simpa [h] using b.asphalt, by simpa [h] using b.lane, by simpa [h] using b.marker, by simpa using b.hBounds⟩,
      by simpa [h] using hw.asphalt, by simpa [h] using hw.lane, by simpa [h] using hw.marker⟩
  · simp only [h, if_false]
    obtain ⟨p, h1, b⟩ := renderSegment_ok hS ht hf hseg
      (p := ⟨w.grayedAsphalt, w.grayedLane, w.grayedMarker, w.normal.hBounds⟩) ⟨hw.asphalt, hw.lane, hw.marker, hw.normal.hBounds⟩
    refine ⟨⟨{ w.normal with hBounds := p.hBounds }, p.asphalt, p.lane, p.marker⟩, h1.bind (.const rfl), ?_⟩
    exact ⟨⟨by simpa [h] using hw.normal.asphalt, by simpa [h] using hw.normal.lane, by simpa [h] using hw.normal.marker,
      by simpa using b.hBounds⟩, by simpa [h] using b.asphalt, by simpa [h] using b.lane, by simpa [h] using b.marker⟩

theorem walkJunctions_ok {d : Drawing} (hS : Simplifies d.env d.f d.simplify) (ht : 0 < d.t) (hf : GoodFeatures d.f)
    {rg : RoadGeometry} (hrg : ∀ seg ∈ segmentsOf rg, GoodSegment d.t seg) :
    ∃ w, Returns (fun n => walkJunctions (d.env.at n) d.f rg) w ∧ WalkHolds d w (segmentsOf rg) := by
  have hmem : ∀ j ∈ rg.junctions, ∀ segs, j = some segs → ∀ s, some s ∈ segs → s ∈ segmentsOf rg := by
    intro j hj segs hs s h
    simp only [segmentsOf, List.mem_filterMap, List.mem_flatten, id]
    exact ⟨some s, ⟨segs, ⟨j, hj, hs⟩, h⟩, rfl⟩
  have := Returns.foldlM (step := fun n (w : Walk) (junction : Option (List (Option Segment))) => match junction with
      | none => .ok w
      | some segments => segments.foldlM (walkSegment (d.env.at n) d.f) w)
    (fun w pre => WalkHolds d w (((pre.filterMap id).flatten).filterMap id)) rg.junctions (by
      intro w pre j hj hw
      rcases j with _ | segs
      · exact ⟨w, .const rfl, by simpa using hw⟩
      · obtain ⟨w', c1, c2⟩ := Returns.foldlM (step := fun n => walkSegment (d.env.at n) d.f)
          (fun w done => WalkHolds d w (((pre.filterMap id).flatten).filterMap id ++ done.filterMap id)) segs (by
            intro w done s hs hw
            rcases s with _ | s
            · exact ⟨w, .const rfl, by simpa using hw⟩
            · obtain ⟨w', e1, e2⟩ := walkSegment_ok hS ht hf (hrg s (hmem _ hj _ rfl s hs)) hw
              exact ⟨w', e1, by simpa using e2⟩) (s := w) (pre := []) (by simpa using hw)
        exact ⟨w', c1, by simpa using c2⟩)
    (s := .new) (pre := []) (by
      refine ⟨⟨?_, ?_, ?_, ?_⟩, ?_, ?_, ?_⟩ <;> exact .new)
  obtain ⟨w, h1, h2⟩ := this
  exact ⟨w, h1, by simpa [segmentsOf] using h2⟩

/-! ### The nine meshes -/

theorem materialByName_mem {name : String} {m : Material} (h : materials.find? (fun m => m.name == name) = some m) :
    materialByName name = .ok m ∧ m.name = name ∧ m ∈ materials := by
  refine ⟨by simp [materialByName, h], ?_, List.mem_of_find?_eq_some h⟩
  simpa using List.find?_some h

theorem material_exists {name : String} (h : name ∈ materials.map (·.name)) :
    ∃ m, materialByName name = .ok m ∧ m.name = name ∧ m ∈ materials := by
  obtain ⟨m, hm, rfl⟩ := List.mem_map.1 h
  rcases hf : materials.find? (fun x => x.name == m.name) with _ | x
  · have := List.find?_eq_none.1 hf m hm
    simp at this
  · exact ⟨x, materialByName_mem hf⟩

/-- The names of the meshes. -/
def meshNames : List String := ["asphalt", "lane", "marker", "h_bounds", "branch_point", "grayed_asphalt", "grayed_lane", "grayed_marker", "sidewalk"]

theorem nine {α : Type} (x1 x2 x3 x4 x5 x6 x7 x8 x9 : α) :
    ∀ m : Map String α, m = (((((((((Map.empty.set "asphalt" x1).set "lane" x2).set "marker" x3).set "h_bounds" x4).set
      "branch_point" x5).set "grayed_asphalt" x6).set "grayed_lane" x7).set "grayed_marker" x8).set "sidewalk" x9) →
    (∀ key, m.has key = true ↔ key ∈ meshNames) ∧
    m.get? "asphalt" = some x1 ∧
    m.get? "lane" = some x2 ∧
    m.get? "marker" = some x3 ∧
    m.get? "h_bounds" = some x4 ∧
    m.get? "branch_point" = some x5 ∧
    m.get? "grayed_asphalt" = some x6 ∧
    m.get? "grayed_lane" = some x7 ∧
    m.get? "grayed_marker" = some x8 ∧
    m.get? "sidewalk" = some x9 := by
  intro m hm
  have e : ∀ key, m.get? key = if key = "sidewalk" then some x9 else if key = "grayed_marker" then some x8 else
      if key = "grayed_lane" then some x7 else if key = "grayed_asphalt" then some x6 else
      if key = "branch_point" then some x5 else if key = "h_bounds" then some x4 else
      if key = "marker" then some x3 else if key = "lane" then some x2 else if key = "asphalt" then some x1 else none := by
    intro key
    rw [hm]
    simp only [Map.get?_set, Map.get?_empty]
  clear hm
  refine ⟨?_, ?_⟩
  · intro key
    rw [Map.has_iff, e]
    simp only [meshNames, List.mem_cons, List.not_mem_nil, or_false]
    constructor
    · rintro ⟨v, h⟩
      by_contra hne
      simp only [not_or] at hne
      obtain ⟨h1, h2, h3, h4, h5, h6, h7, h8, h9⟩ := hne
      simp only [h1, h2, h3, h4, h5, h6, h7, h8, h9, if_false] at h
      cases h
    · rintro (rfl | rfl | rfl | rfl | rfl | rfl | rfl | rfl | rfl) <;> simp
  · refine ⟨?_, ?_, ?_, ?_, ?_, ?_, ?_, ?_, ?_⟩ <;> rw [e] <;> simp

theorem buildMeshes_ok {env : Env} {f : Features} {rg : RoadGeometry} {w : Walk} {b : GeoMesh × List Pos}
    (hw : walkJunctions env f rg = .ok w) (hb : renderBranchPoints env f rg = .ok b) {y1 y2 y3 y4 y5 y6 y7 y8 y9 : Material}
    (h1 : materialByName "bland_asphalt" = .ok y1)
    (h2 : materialByName "lane_haze" = .ok y2)
    (h3 : materialByName "marker_paint" = .ok y3)
    (h4 : materialByName "h_bounds_haze" = .ok y4)
    (h5 : materialByName "branch_point_glow" = .ok y5)
    (h6 : materialByName "grayed_bland_asphalt" = .ok y6)
    (h7 : materialByName "grayed_lane_haze" = .ok y7)
    (h8 : materialByName "grayed_marker_paint" = .ok y8)
    (h9 : materialByName "sidewalk" = .ok y9) :
    buildMeshes env f rg = .ok (((((((((Map.empty.set "asphalt" (w.normal.asphalt, y1)).set "lane" (w.normal.lane, y2)).set
      "marker" (w.normal.marker, y3)).set "h_bounds" (w.normal.hBounds, y4)).set "branch_point" (b.1, y5)).set
      "grayed_asphalt" (w.grayedAsphalt, y6)).set "grayed_lane" (w.grayedLane, y7)).set
      "grayed_marker" (w.grayedMarker, y8)).set "sidewalk" (.empty, y9)) := by
  have ok : ∀ {α β : Type} (a : α) (k : α → Except Stop β), (Except.ok a >>= k) = k a := fun _ _ => rfl
  have lok : ∀ {α : Type} (a : α), lift (Except.ok a) = Except.ok a := fun _ => rfl
  unfold buildMeshes
  rw [hw, ok, hb, ok, h1, lok, ok, h2, lok, ok, h3, lok, ok, h4, lok, ok, h5, lok, ok, h6, lok, ok, h7, lok, ok, h8, lok, ok,
    h9, lok, ok]
  rfl

end Maliput.GenerateObj
