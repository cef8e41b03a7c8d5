import Verif.Model.GenerateObj
import Verif.Spec.Mesh
import Verif.Spec.RoadMesh

set_option autoImplicit false

/-! Specification of the meshes of road geometries and of the files that are made of them. -/
namespace Maliput.GenerateObj.Spec

open Maliput.GenerateObj
open Maliput.RoadMesh (Lane Pos RBounds Srh SrhFace coverLane stripes markLaneEnds pickGridUnit)
open Maliput.RouteGraph (Stop lift)
open Maliput.Mesh.Spec (Built)

/-! ### Branch points -/

/-- The coordinate along the lane of an end of a lane. -/
def LaneEnd.s (e : LaneEnd) : ℚ := if e.atStart then 0 else e.lane.length

/-- The width of a lane at its end. -/
def LaneEnd.width (e : LaneEnd) : ℚ := (e.lane.laneBounds (LaneEnd.s e)).max - (e.lane.laneBounds (LaneEnd.s e)).min

/-- The orientation of the lane at its end, as a matrix of rows. -/
def LaneEnd.frame (e : LaneEnd) (h : ℚ) : Fin 3 → Pos := e.lane.orientation ⟨LaneEnd.s e, 0, h⟩

/-- The inertial position at the center of the lane, at its end and at the height `h`. -/
def LaneEnd.above (e : LaneEnd) (h : ℚ) : Pos := e.lane.toInertial ⟨LaneEnd.s e, 0, h⟩

/-- Above its end the orientation of the lane is that of the end, a rotation matrix, and heights are measured along
its third axis. -/
structure Upright (e : LaneEnd) : Prop where
  frame : ∀ h, LaneEnd.frame e h = LaneEnd.frame e 0
  orthonormal : ∀ i j : Fin 3, (LaneEnd.frame e 0 0 i * LaneEnd.frame e 0 0 j + LaneEnd.frame e 0 1 i * LaneEnd.frame e 0 1 j +
    LaneEnd.frame e 0 2 i * LaneEnd.frame e 0 2 j) = if i = j then 1 else 0
  above : ∀ h (i : Fin 3), LaneEnd.above e h i = LaneEnd.above e 0 i + h * LaneEnd.frame e 0 i 2

/-- The offset of `p` from the position above the end of the lane, along the axis `i` of the lane. -/
def offset (e : LaneEnd) (h : ℚ) (p : Pos) (i : Fin 3) : ℚ :=
  LaneEnd.frame e h 0 i * (p 0 - LaneEnd.above e h 0) + LaneEnd.frame e h 1 i * (p 1 - LaneEnd.above e h 1) +
    LaneEnd.frame e h 2 i * (p 2 - LaneEnd.above e h 2)

/-- The position at the height `h` above the end of the lane and `p` are apart: in the plane of the lane they are at
least as far apart as the lane is wide there, or perpendicularly to it they are at least `height` apart. -/
def Apart (e : LaneEnd) (height h : ℚ) (p : Pos) : Prop :=
  LaneEnd.width e ^ 2 ≤ offset e h p 0 ^ 2 + offset e h p 1 ^ 2 ∨ height ≤ |offset e h p 2|

/-- The faces as they are in a mesh: inertial positions with normals, which are those of the face turned by the
orientation of the lane. -/
def placed (l : Lane) (fs : List SrhFace) : List (List (Pos × Pos)) :=
  fs.map fun f => f.vertices.map fun v =>
    (l.toInertial v, fun i => l.orientation v i 0 * f.normal.s + l.orientation v i 1 * f.normal.r +
      l.orientation v i 2 * f.normal.h)

/-- A branch point that is drawn, with the first of its lane ends and the elevation at which it is drawn. -/
structure Drawn where
  bp : BranchPoint
  first : LaneEnd
  elevation : ℚ

/-- The center of a branch point that is drawn. -/
def Drawn.center (d : Drawn) : Pos := LaneEnd.above d.first d.elevation

/-- The faces of a branch point that is drawn: a diamond at its first lane end and an arrow at each of them. -/
def Drawn.faces (height : ℚ) (d : Drawn) : List (List (Pos × Pos)) :=
  placed d.first.lane (branchFaces d.elevation height d.first true) ++
    (d.bp.aSide ++ d.bp.bSide).flatMap fun e => placed e.lane (branchFaces d.elevation height e false)

/-- The component along `n` of the cross product of the edges from `a` to `b` and from `b` to `c`: positive if the
corner at `b` turns left when seen from where `n` points to. -/
def wound (n a b c : Srh) : ℚ :=
  n.s * ((b.r - a.r) * (c.h - b.h) - (b.h - a.h) * (c.r - b.r)) +
  n.r * ((b.h - a.h) * (c.s - b.s) - (b.s - a.s) * (c.h - b.h)) +
  n.h * ((b.s - a.s) * (c.r - b.r) - (b.r - a.r) * (c.s - b.s))

/-- The corners of a face are in counterclockwise order when seen from where its normal points to. -/
def Faces (f : SrhFace) : Prop :=
  ∀ i, i < f.vertices.length → ∀ a b c, f.vertices[i]? = some a → f.vertices[(i + 1) % f.vertices.length]? = some b →
    f.vertices[(i + 2) % f.vertices.length]? = some c → 0 ≤ wound f.normal a b c

/-- The corners of a face are in clockwise order when seen from where its normal points to, strictly at each of
them. -/
def FacesAway (f : SrhFace) : Prop :=
  ∀ i, i < f.vertices.length → ∀ a b c, f.vertices[i]? = some a → f.vertices[(i + 1) % f.vertices.length]? = some b →
    f.vertices[(i + 2) % f.vertices.length]? = some c → wound f.normal a b c < 0

/-! ### Segments -/

/-- A computation that has a bound of iterations returns `a` if the bound is large enough. -/
def Returns {α : Type} (c : ℕ → Except Stop α) (a : α) : Prop := ∃ N, ∀ n ≥ N, c n = .ok a

open Classical in
/-- The faces that a computation returns if its bound of iterations is large enough. -/
noncomputable def facesOf (c : ℕ → Except Stop (List SrhFace)) : List SrhFace :=
  if h : ∃ a, Returns c a then h.choose else []

/-- A lane covered with faces at some elevation. -/
noncomputable def sheet (env : Env) (f : Features) (l : Lane) (g : ℚ) (seg : Bool) (elevation : ℚ → ℚ → ℚ) :
    List (List (Pos × Pos)) :=
  placed l (facesOf fun n => coverLane env.dist n l g seg elevation f.offGridMeshGeneration)

/-- The stripes at the bounds of a lane. -/
noncomputable def laneStripes (f : Features) (t : ℚ) (l : Lane) : List (List (Pos × Pos)) :=
  placed l (facesOf fun n =>
    stripes n l (pickGridUnit l f.maxGridUnit f.minGridResolution t) f.stripeElevation f.stripeWidth)

/-- The arrows at the ends of a lane. -/
noncomputable def laneArrows (f : Features) (t : ℚ) (l : Lane) : List (List (Pos × Pos)) :=
  placed l (facesOf fun _ =>
    lift (markLaneEnds l (pickGridUnit l f.maxGridUnit f.minGridResolution t) f.arrowElevation))

/-- The size of the grid of a segment: the tolerance if the mesh is generated off the grid, otherwise it is that of its
first lane. -/
def gridOf (f : Features) (t : ℚ) (l : Lane) : ℚ :=
  if f.offGridMeshGeneration then t else pickGridUnit l f.maxGridUnit f.minGridResolution t

/-- The lanes of a segment that are not null. -/
def lanesOf (seg : Segment) : List Lane := seg.lanes.filterMap id

/-- What is drawn for a segment: `simplify` is what simplification does to a list of faces. -/
structure Drawing where
  env : Env
  f : Features
  /-- the tolerance of the road geometry -/
  t : ℚ
  simplify : List (List (Pos × Pos)) → List (List (Pos × Pos))

/-- The surface of a segment: its first lane, up to the bounds of the segment. -/
noncomputable def Drawing.asphalt (d : Drawing) (seg : Segment) : List (List (Pos × Pos)) :=
  match lanesOf seg with
  | l :: _ => d.simplify (sheet d.env d.f l (gridOf d.f d.t l) true fun _ _ => 0)
  | [] => []

/-- The elevation bounds of a segment: the upper one and the lower one. -/
noncomputable def Drawing.hBounds (d : Drawing) (seg : Segment) : List (List (Pos × Pos)) :=
  match lanesOf seg with
  | l :: _ =>
    if d.f.drawElevationBounds then
      d.simplify (sheet d.env d.f l (gridOf d.f d.t l) true fun s r => (l.elevationBounds s r).max) ++
      d.simplify (sheet d.env d.f l (gridOf d.f d.t l) true fun s r => (l.elevationBounds s r).min)
    else []
  | [] => []

/-- The haze of a lane with a given size of the grid. -/
noncomputable def Drawing.laneHaze (d : Drawing) (g : ℚ) (l : Lane) : List (List (Pos × Pos)) :=
  if d.f.drawLaneHaze then d.simplify (sheet d.env d.f l g false fun _ _ => d.f.laneHazeElevation) else []

/-- The haze of the lanes of a segment. -/
noncomputable def Drawing.haze (d : Drawing) (seg : Segment) : List (List (Pos × Pos)) :=
  match lanesOf seg with
  | l0 :: ls => (l0 :: ls).flatMap (d.laneHaze (gridOf d.f d.t l0))
  | [] => []

/-- The markers of a lane. -/
noncomputable def Drawing.laneMarkers (d : Drawing) (l : Lane) : List (List (Pos × Pos)) :=
  (if d.f.drawStripes then d.simplify (laneStripes d.f d.t l) else []) ++
  (if d.f.drawArrows then d.simplify (laneArrows d.f d.t l) else [])

/-- The markers of the lanes of a segment. -/
noncomputable def Drawing.markers (d : Drawing) (seg : Segment) : List (List (Pos × Pos)) :=
  (lanesOf seg).flatMap d.laneMarkers

/-- The segments of a road geometry. -/
def segmentsOf (rg : RoadGeometry) : List Segment := ((rg.junctions.filterMap id).flatten).filterMap id

/-- A segment is highlighted: there are no highlighted segments at all, or it is one of them. -/
def Highlighted (f : Features) (seg : Segment) : Prop :=
  f.highlightedSegments = [] ∨ seg.id ∈ f.highlightedSegments

instance (f : Features) (seg : Segment) : Decidable (Highlighted f seg) := by unfold Highlighted; infer_instance

/-- The segments that are drawn as usual. -/
def usual (f : Features) (rg : RoadGeometry) : List Segment := (segmentsOf rg).filter fun seg => Highlighted f seg

/-- The segments that are drawn gray. -/
def gray (f : Features) (rg : RoadGeometry) : List Segment := (segmentsOf rg).filter fun seg => ¬ Highlighted f seg

/-- A lane that can be drawn. -/
structure GoodLane (t : ℚ) (l : Lane) : Prop where
  length : 0 ≤ l.length
  tolerance : l.linearTolerance = t

/-- A segment that can be drawn. -/
structure GoodSegment (t : ℚ) (seg : Segment) : Prop where
  tolerance : seg.tolerance = some t
  first : seg.lanes.head? ≠ some none
  lanes : ∀ l ∈ lanesOf seg, GoodLane t l

/-- A road geometry with a positive tolerance that can be drawn. -/
structure GoodRoad (rg : RoadGeometry) : Prop where
  tolerance : 0 < rg.linearTolerance
  segments : ∀ seg ∈ segmentsOf rg, GoodSegment rg.linearTolerance seg
  upright : ∀ bp e, some bp ∈ rg.branchPoints → (bp.aSide ++ bp.bSide).head? = some e → Upright e

/-- Numbers that are not negative where they may not be. -/
structure GoodFeatures (f : Features) : Prop where
  stripeWidth : 0 ≤ f.stripeWidth
  elevation : 0 ≤ f.branchPointElevation
  height : 0 ≤ f.branchPointHeight

/-- Simplification of a mesh changes its faces in a way that depends on them only. -/
def Simplifies (env : Env) (f : Features) (simplify : List (List (Pos × Pos)) → List (List (Pos × Pos))) : Prop :=
  ∀ m fs, Built m fs → ∃ m', simplifyMesh env m f = .ok m' ∧ Built m' (simplify fs)

/-- A map has a mesh of these faces with the material of this name. -/
def HasMesh (meshes : Map String (GeoMesh × Material)) (key material : String) (fs : List (List (Pos × Pos))) : Prop :=
  ∃ m mat, meshes.get? key = some (m, mat) ∧ mat.name = material ∧ mat ∈ materials ∧ Built m fs

/-- The branch points that are drawn, with their elevations: those that have lane ends, each of them apart from those
before; none if they are not to be drawn. -/
structure BranchPointsDrawn (f : Features) (rg : RoadGeometry) (drawn : List Drawn) : Prop where
  off : f.drawBranchPoints = false → drawn = []
  which : f.drawBranchPoints = true →
    drawn.map (·.bp) = (rg.branchPoints.filterMap id).filter (fun bp => !(bp.aSide ++ bp.bSide).isEmpty)
  first : ∀ d ∈ drawn, (d.bp.aSide ++ d.bp.bSide).head? = some d.first
  apart : drawn.Pairwise fun a b => Apart b.first f.branchPointHeight b.elevation a.center

/-- What is drawn for a road geometry without simplification, or with it. -/
def drawing (env : Env) (f : Features) (rg : RoadGeometry)
    (simplify : List (List (Pos × Pos)) → List (List (Pos × Pos))) : Drawing := ⟨env, f, rg.linearTolerance, simplify⟩

/-! ### Decimals -/

/-- The number of a sequence of digits. -/
def natOf (cs : List Char) : Option ℕ :=
  cs.foldl (fun acc c => acc.bind fun n => if c.isDigit then some (10 * n + (c.toNat - '0'.toNat)) else none) (some 0)

/-- The number of digits with an optional decimal point and more digits. -/
def decimalOf (cs : List Char) : Option ℚ :=
  match natOf (cs.takeWhile (· ≠ '.')), natOf (cs.dropWhile (· ≠ '.')).tail with
  | some whole, some fraction => some (whole + fraction / 10 ^ ((cs.dropWhile (· ≠ '.')).tail.length))
  | _, _ => none

/-- The number that a text like `-12.345` stands for. -/
def decimal (s : String) : Option ℚ :=
  match s.toList with
  | '-' :: cs => (decimalOf cs).map (- ·)
  | cs => decimalOf cs

/-! ### Files -/

/-- A number of digits after the decimal point: the least one with which three coordinates that are each wrong by half a
unit of the last digit are at most a tenth of the tolerance away. -/
def Enough (tolerance : ℚ) (p : ℕ) : Prop :=
  3 * (1 / 2 / 10 ^ p) ^ 2 ≤ (tolerance / 10) ^ 2 ∧ ∀ q < p, (tolerance / 10) ^ 2 < 3 * (1 / 2 / 10 ^ q) ^ 2

/-- The text stands for a position that differs from this one by at most half a unit of the digit `p` after the decimal
point in each of its coordinates, and by at most a tenth of the tolerance altogether. -/
def Shows (tolerance : ℚ) (p : ℕ) (text : Text3) (x : Pos) : Prop :=
  ∃ y : Pos, decimal text.x = some (y 0) ∧ decimal text.y = some (y 1) ∧ decimal text.z = some (y 2) ∧
    (∀ i, |y i - x i| ≤ 1 / 2 / 10 ^ p) ∧ (y 0 - x 0) ^ 2 + (y 1 - x 1) ^ 2 + (y 2 - x 2) ^ 2 ≤ (tolerance / 10) ^ 2

/-- The text stands for these three numbers. -/
def Exact (text : Text3) (v : ℚ × ℚ × ℚ) : Prop :=
  decimal text.x = some v.1 ∧ decimal text.y = some v.2.1 ∧ decimal text.z = some v.2.2

/-- The text describes the material; its opacity is written with `p` digits after the decimal point. -/
structure Describes (p : ℕ) (text : MaterialText) (m : Material) : Prop where
  name : text.newmtl = m.name
  ambient : Exact text.ka m.ambient
  diffuse : Exact text.kd m.diffuse
  specular : Exact text.ks m.specular
  shininess : decimal text.ns = some m.shininess
  opacity : ∃ y, decimal text.d = some y ∧ |y - (1 - m.transparency)| ≤ 1 / 2 / 10 ^ p

/-! ### Meshes by id -/

/-- The name of the material of each type of mesh. -/
def materialName : MaterialType → String
  | .asphalt => "bland_asphalt"
  | .lane => "lane_haze"
  | .marker => "marker_paint"
  | .hBounds => "h_bounds_haze"
  | .branchPointGlow => "branch_point_glow"
  | .grayedAsphalt => "grayed_bland_asphalt"
  | .grayedLane => "grayed_lane_haze"
  | .grayedMarker => "grayed_marker_paint"
  | .sidewalk => "sidewalk"

/-- What is drawn of a single lane, up to its own bounds: its surface, its haze, its markers or its elevation bounds;
nothing else of a lane can be drawn. -/
noncomputable def Drawing.ofLane (d : Drawing) (l : Lane) : MaterialType → Option (List (List (Pos × Pos)))
  | .asphalt | .grayedAsphalt => some (d.simplify (sheet d.env d.f l (gridOf d.f d.t l) false fun _ _ => 0))
  | .lane | .grayedLane => some (d.laneHaze (gridOf d.f d.t l) l)
  | .marker | .grayedMarker => some (d.laneMarkers l)
  | .hBounds => some (if d.f.drawElevationBounds then
      d.simplify (sheet d.env d.f l (gridOf d.f d.t l) false fun s r => (l.elevationBounds s r).max) ++
      d.simplify (sheet d.env d.f l (gridOf d.f d.t l) false fun s r => (l.elevationBounds s r).min) else [])
  | .branchPointGlow | .sidewalk => none

/-- A road geometry without null pointers, whose lanes and branch points are found by their ids, and whose branch points
have lane ends. -/
structure Complete (rg : RoadGeometry) : Prop where
  junctions : none ∉ rg.junctions
  segments : ∀ segs, some segs ∈ rg.junctions → none ∉ segs
  lanes : ∀ seg ∈ segmentsOf rg, none ∉ seg.lanes
  laneById : ∀ seg ∈ segmentsOf rg, ∀ l ∈ lanesOf seg, rg.laneById l.id = some l
  branchPoints : none ∉ rg.branchPoints
  branchPointById : ∀ bp, some bp ∈ rg.branchPoints → rg.branchPointById bp.id = some bp
  ends : ∀ bp, some bp ∈ rg.branchPoints → bp.aSide ++ bp.bSide ≠ []

/-- The keys of a map are exactly those of `xs`, and for each of them there is a mesh of its faces, of the material of
this name. -/
def Meshed {α : Type} (m : Meshes) (key : α → String) (material : String) (faces : α → List (List (Pos × Pos)))
    (xs : List α) : Prop :=
  (∀ k, m.has k = true ↔ ∃ x ∈ xs, k = key x) ∧ ∀ x ∈ xs, HasMesh m (key x) material (faces x)

end Maliput.GenerateObj.Spec
