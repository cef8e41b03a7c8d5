import Mathlib.Algebra.Order.Archimedean.Basic
import Mathlib.Algebra.Order.Round
import Mathlib.Data.Nat.Digits.Defs
import Verif.Model.RoadMesh

set_option autoImplicit false

/-!
Model of the part of src/maliput/utility/generate_obj.cc that makes the meshes of road geometries and writes them to
files.  Pointers that may be null are options.  The simplification of meshes and the distance of positions are
parameters.
-/
namespace Maliput.GenerateObj

open Maliput.RouteGraph (Stop lift)
open Maliput.RoadMesh (Lane Pos RBounds Srh SrhFace pushFaces coverLane stripes markLaneEnds pickGridUnit)

/-- The meshes of roads. -/
abbrev GeoMesh := Mesh.GeoMesh Pos Pos

/-- `ObjFeatures`, include/maliput/utility/generate_obj.h:45-92. -/
structure Features where
  maxGridUnit : ℚ := 1
  minGridResolution : ℚ := 5
  drawStripes : Bool := true
  drawArrows : Bool := true
  drawLaneHaze : Bool := true
  drawBranchPoints : Bool := true
  drawElevationBounds : Bool := true
  offGridMeshGeneration : Bool := false
  simplifyMeshThreshold : ℚ := 0
  stripeWidth : ℚ := 1 / 4
  stripeElevation : ℚ := 1 / 20
  arrowElevation : ℚ := 1 / 20
  laneHazeElevation : ℚ := 1 / 50
  branchPointElevation : ℚ := 1 / 2
  branchPointHeight : ℚ := 1 / 2
  origin : Pos := ![0, 0, 0]
  highlightedSegments : List String := []

/-- `LaneEnd`, include/maliput/api/lane_data.h: a lane and whether it is the start of it. -/
structure LaneEnd where
  lane : Lane
  atStart : Bool

/-- A `BranchPoint` with its sets of lane ends, which are not null. -/
structure BranchPoint where
  id : String
  aSide : List LaneEnd
  bSide : List LaneEnd

/-- A `Segment`.  The tolerance is that of `junction()->road_geometry()`, and `none` if one of them is null. -/
structure Segment where
  id : String
  lanes : List (Option Lane)
  tolerance : Option ℚ

/-- A `RoadGeometry` with its junctions, which are lists of segments, and the answers of its `IdIndex`. -/
structure RoadGeometry where
  junctions : List (Option (List (Option Segment)))
  branchPoints : List (Option BranchPoint)
  linearTolerance : ℚ
  /-- `ById().GetLane(id)`, with the tolerance of its road geometry -/
  laneById : String → Option Lane
  segmentById : String → Option Segment
  branchPointById : String → Option BranchPoint

/-- The parameters: the distance of two positions, the bound of iterations, and
`SimplifyMeshFaces(mesh, tolerance)`. -/
structure Env where
  dist : Pos → Pos → ℚ
  bound : ℕ
  simplifyFaces : GeoMesh → ℚ → Except Stop GeoMesh

/-! ### Branch points -/

/-- The faces that `DrawBranch` makes, src/maliput/utility/generate_obj.cc:505-543. -/
def branchFaces (elevation height : ℚ) (e : LaneEnd) (asDiamond : Bool) : List SrhFace :=
  let endS := if e.atStart then 0 else e.lane.length
  let b := e.lane.laneBounds endS
  let halfWidth := (b.max - b.min) * (1 / 10) * (1 / 2)
  let length := min (2 / 5 * e.lane.length) (1 * (b.max - b.min)) * (if e.atStart then 1 else -1)
  let leftR := halfWidth * (if e.atStart then 1 else -1)
  let rightR := -leftR
  if asDiamond then
    [⟨[⟨endS, 0, elevation - 1 / 2 * height⟩, ⟨endS, rightR, elevation⟩, ⟨endS, 0, elevation + 1 / 2 * height⟩,
       ⟨endS, leftR, elevation⟩], ⟨if endS = 0 then 1 else -1, 0, 0⟩⟩]
  else
    [⟨[⟨endS, leftR, elevation⟩, ⟨endS, rightR, elevation⟩, ⟨endS + length, rightR * (1 / 10), elevation⟩,
       ⟨endS + length, leftR * (1 / 10), elevation⟩], ⟨0, 0, 1⟩⟩,
     ⟨[⟨endS, 0, elevation - 1 / 2 * height⟩, ⟨endS, 0, elevation + 1 / 2 * height⟩,
       ⟨endS + length, 0, elevation + 1 / 2 * (1 / 10) * height⟩,
       ⟨endS + length, 0, elevation - 1 / 2 * (1 / 10) * height⟩], ⟨0, if length > 0 then 1 else -1, 0⟩⟩]

/-- `DrawBranch`, src/maliput/utility/generate_obj.cc:501-544. -/
def drawBranch (elevation height : ℚ) (e : LaneEnd) (asDiamond : Bool) (m : GeoMesh) : Except Err GeoMesh := do
  throwUnless (decide (elevation ≥ 0) && decide (height ≥ 0))
  pushFaces e.lane m (branchFaces elevation height e asDiamond)

/-- `DrawArrows`, src/maliput/utility/generate_obj.cc:554-561. -/
def drawArrows (elevation height : ℚ) (set : List LaneEnd) (m : GeoMesh) : Except Err GeoMesh :=
  set.foldlM (fun m e => drawBranch elevation height e false m) m

/-- The reference end, src/maliput/utility/generate_obj.cc:583-584: `get(0)` of an empty set throws
`std::out_of_range`. -/
def referenceEnd (bp : BranchPoint) : Except Err LaneEnd :=
  match bp.aSide, bp.bSide with
  | e :: _, _ => .ok e
  | [], e :: _ => .ok e
  | [], [] => .error .outOfRange

/-- The position of the center at an elevation, src/maliput/utility/generate_obj.cc:596-597. -/
def centerSrh (e : LaneEnd) (elevation : ℚ) : Srh := ⟨if e.atStart then 0 else e.lane.length, 0, elevation⟩

/-- `orientation.matrix().transpose() * (previous - center)`, src/maliput/utility/generate_obj.cc:606. -/
def delta (e : LaneEnd) (elevation : ℚ) (previous : Pos) : Pos := fun i =>
  let rows := e.lane.orientation (centerSrh e elevation)
  let center := e.lane.toInertial (centerSrh e elevation)
  rows 0 i * (previous 0 - center 0) + rows 1 i * (previous 1 - center 1) + rows 2 i * (previous 2 - center 2)

/-- The condition of a conflict, src/maliput/utility/generate_obj.cc:607.  The norm is compared by its square, the
margin is not negative. -/
def conflicts (e : LaneEnd) (margin height elevation : ℚ) (previous : Pos) : Bool :=
  let d := delta e elevation previous
  decide (d 0 * d 0 + d 1 * d 1 < margin * margin) && decide (|d 2| < height)

/-- The loop that finds an elevation, src/maliput/utility/generate_obj.cc:594-617. -/
def elevationLoop (e : LaneEnd) (margin height : ℚ) (previous : List Pos) : ℕ → ℚ → Except Stop ℚ
  | 0, _ => .error .depth
  | n + 1, elevation =>
    if previous.any (conflicts e margin height elevation) then elevationLoop e margin height previous n (elevation + height)
    else .ok elevation

/-- `RenderBranchPoint`, src/maliput/utility/generate_obj.cc:573-628: the mesh and the centers. -/
def renderBranchPoint (bound : ℕ) (bp : BranchPoint) (baseElevation height : ℚ) (m : GeoMesh) (centers : List Pos) :
    Except Stop (GeoMesh × List Pos) :=
  if bp.aSide.isEmpty && bp.bSide.isEmpty then .ok (m, centers)
  else do
    let e ← lift (referenceEnd bp)
    let b := e.lane.laneBounds (if e.atStart then 0 else e.lane.length)
    let elevation ← elevationLoop e (b.max - b.min) height centers bound baseElevation
    let m ← lift (drawBranch elevation height e true m)
    let m ← lift (drawArrows elevation height bp.aSide m)
    let m ← lift (drawArrows elevation height bp.bSide m)
    return (m, centers ++ [e.lane.toInertial (centerSrh e elevation)])

/-! ### Segments -/

/-- `SimplifyMesh`, src/maliput/utility/generate_obj.cc:630-636. -/
def simplifyMesh (env : Env) (m : GeoMesh) (f : Features) : Except Stop GeoMesh :=
  if f.simplifyMeshThreshold = 0 then .ok m else env.simplifyFaces m f.simplifyMeshThreshold

/-- A new mesh with the faces of a lane is simplified and its faces are added to another mesh, for example
src/maliput/utility/generate_obj.cc:670-675. -/
def addFaces (env : Env) (f : Features) (l : Lane) (m : GeoMesh) (faces : Except Stop (List SrhFace)) :
    Except Stop GeoMesh := do
  let fs ← faces
  let new ← lift (pushFaces l .empty fs)
  let new ← simplifyMesh env new f
  lift (m.addFacesFrom new)

/-- `CoverLaneWithQuads` with the options of `features`, for example src/maliput/utility/generate_obj.cc:672-673. -/
def cover (env : Env) (f : Features) (l : Lane) (g : ℚ) (seg : Bool) (elevation : ℚ → ℚ → ℚ) :
    Except Stop (List SrhFace) :=
  coverLane env.dist env.bound l g seg elevation f.offGridMeshGeneration

/-- The meshes that `RenderSegment` adds to, except for that of sidewalks, which it does not use. -/
structure Parts where
  asphalt : GeoMesh
  lane : GeoMesh
  marker : GeoMesh
  hBounds : GeoMesh

/-- The loop over lanes of `RenderSegment`, src/maliput/utility/generate_obj.cc:692-718. -/
def renderLane (env : Env) (f : Features) (tolerance baseGridUnit : ℚ) (p : Parts) : Option Lane → Except Stop Parts
  | none => .ok p
  | some l => do
    let gridUnit := pickGridUnit l f.maxGridUnit f.minGridResolution tolerance
    let lane ← (if f.drawLaneHaze then
      addFaces env f l p.lane (cover env f l baseGridUnit false fun _ _ => f.laneHazeElevation) else .ok p.lane)
    let marker ← (if f.drawStripes then
      addFaces env f l p.marker (stripes env.bound l gridUnit f.stripeElevation f.stripeWidth) else .ok p.marker)
    let marker ← (if f.drawArrows then
      addFaces env f l marker (lift (markLaneEnds l gridUnit f.arrowElevation)) else .ok marker)
    return { p with lane := lane, marker := marker }

/-- `features.off_grid_mesh_generation ? linear_tolerance : PickGridUnit(...)`, for example
src/maliput/utility/generate_obj.cc:664-667. -/
def baseGridUnit (f : Features) (l : Lane) (tolerance : ℚ) : ℚ :=
  if f.offGridMeshGeneration then tolerance else pickGridUnit l f.maxGridUnit f.minGridResolution tolerance

/-- `RenderSegment`, src/maliput/utility/generate_obj.cc:653-719, for a segment that is not null.  Using lane 0 is
undefined if it is null. -/
def renderSegment (env : Env) (f : Features) (segment : Segment) (p : Parts) : Except Stop Parts :=
  match segment.tolerance with
  | none => .error (.err .throws)
  | some tolerance =>
    match segment.lanes with
    | [] => .ok p
    | none :: _ => .error (.err .ub)
    | some l0 :: _ => do
      let g := baseGridUnit f l0 tolerance
      let asphalt ← addFaces env f l0 p.asphalt (cover env f l0 g true fun _ _ => 0)
      let hBounds ← (if f.drawElevationBounds then do
        let upper ← addFaces env f l0 p.hBounds (cover env f l0 g true fun s r => (l0.elevationBounds s r).max)
        addFaces env f l0 upper (cover env f l0 g true fun s r => (l0.elevationBounds s r).min)
        else .ok p.hBounds)
      segment.lanes.foldlM (renderLane env f tolerance g) { p with asphalt := asphalt, hBounds := hBounds }

/-- `IsSegmentRenderedNormally`, src/maliput/utility/generate_obj.cc:721-731. -/
def renderedNormally (id : String) (highlights : List String) : Bool :=
  if highlights.isEmpty then true else highlights.any (id == ·)

/-! ### BuildMeshes -/

/-- `Material`, include/maliput/utility/generate_obj.h:107-118. -/
structure Material where
  name : String
  diffuse : ℚ × ℚ × ℚ
  ambient : ℚ × ℚ × ℚ
  specular : ℚ × ℚ × ℚ
  shininess : ℚ
  transparency : ℚ
  deriving DecidableEq

/-- `kMaterial`, src/maliput/utility/generate_obj.cc:77-88. -/
def materials : List Material := [
  ⟨"bland_asphalt", (2 / 10, 2 / 10, 2 / 10), (1 / 10, 1 / 10, 1 / 10), (3 / 10, 3 / 10, 3 / 10), 101 / 10, 0⟩,
  ⟨"lane_haze", (9 / 10, 9 / 10, 9 / 10), (9 / 10, 9 / 10, 9 / 10), (9 / 10, 9 / 10, 9 / 10), 101 / 10, 8 / 10⟩,
  ⟨"marker_paint", (8 / 10, 8 / 10, 0), (1, 1, 0), (1, 1, 1 / 2), 101 / 10, 5 / 10⟩,
  ⟨"h_bounds_haze", (0, 0, 1), (0, 0, 1), (0, 0, 1), 101 / 10, 8 / 10⟩,
  ⟨"branch_point_glow", (0, 0, 1), (0, 0, 1), (0, 0, 1), 101 / 10, 9 / 10⟩,
  ⟨"grayed_bland_asphalt", (1 / 10, 1 / 10, 1 / 10), (2 / 10, 2 / 10, 2 / 10), (3 / 10, 3 / 10, 3 / 10), 101 / 10,
    9 / 10⟩,
  ⟨"grayed_lane_haze", (9 / 10, 9 / 10, 9 / 10), (9 / 10, 9 / 10, 9 / 10), (9 / 10, 9 / 10, 9 / 10), 101 / 10, 9 / 10⟩,
  ⟨"grayed_marker_paint", (8 / 10, 8 / 10, 0), (1, 1, 0), (1, 1, 1 / 2), 101 / 10, 9 / 10⟩,
  ⟨"sidewalk", (8 / 10, 8 / 10, 0), (1, 1, 0), (1, 1, 1 / 2), 101 / 10, 9 / 10⟩]

/-- `GetMaterialByName`, src/maliput/utility/generate_obj.cc:1154-1158. -/
def materialByName (name : String) : Except Err Material :=
  match materials.find? (fun m => m.name == name) with
  | some m => .ok m
  | none => .error .throws

/-- `MaterialType`, include/maliput/utility/generate_obj.h:94-104. -/
inductive MaterialType where
  | asphalt | lane | marker | hBounds | branchPointGlow | grayedAsphalt | grayedLane | grayedMarker | sidewalk
  deriving DecidableEq

/-- `GetMaterialFromMesh`, src/maliput/utility/generate_obj.cc:760-782. -/
def materialFromMesh : MaterialType → Except Err Material
  | .asphalt => materialByName "bland_asphalt"
  | .lane => materialByName "lane_haze"
  | .marker => materialByName "marker_paint"
  | .hBounds => materialByName "h_bounds_haze"
  | .branchPointGlow => materialByName "branch_point_glow"
  | .grayedAsphalt => materialByName "grayed_bland_asphalt"
  | .grayedLane => materialByName "grayed_lane_haze"
  | .grayedMarker => materialByName "grayed_marker_paint"
  | .sidewalk => materialByName "sidewalk"

/-- The local meshes of `BuildMeshes`, src/maliput/utility/generate_obj.cc:987-999, without those that stay empty. -/
structure Walk where
  normal : Parts
  grayedAsphalt : GeoMesh
  grayedLane : GeoMesh
  grayedMarker : GeoMesh

/-- The new meshes. -/
def Walk.new : Walk := ⟨⟨.empty, .empty, .empty, .empty⟩, .empty, .empty, .empty⟩

/-- The body of the loop over segments, src/maliput/utility/generate_obj.cc:1012-1023. -/
def walkSegment (env : Env) (f : Features) (w : Walk) : Option Segment → Except Stop Walk
  | none => .ok w
  | some segment =>
    if renderedNormally segment.id f.highlightedSegments then do
      let p ← renderSegment env f segment w.normal
      return { w with normal := p }
    else do
      let p ← renderSegment env f segment ⟨w.grayedAsphalt, w.grayedLane, w.grayedMarker, w.normal.hBounds⟩
      return ⟨{ w.normal with hBounds := p.hBounds }, p.asphalt, p.lane, p.marker⟩

/-- The loop over junctions, src/maliput/utility/generate_obj.cc:1005-1025. -/
def walkJunctions (env : Env) (f : Features) (rg : RoadGeometry) : Except Stop Walk :=
  rg.junctions.foldlM (fun w junction => match junction with
    | none => .ok w
    | some segments => segments.foldlM (walkSegment env f) w) .new

/-- The loop over branch points, src/maliput/utility/generate_obj.cc:1027-1037. -/
def renderBranchPoints (env : Env) (f : Features) (rg : RoadGeometry) : Except Stop (GeoMesh × List Pos) :=
  if f.drawBranchPoints then
    rg.branchPoints.foldlM (fun x bp => match bp with
      | none => .ok x
      | some bp => renderBranchPoint env.bound bp f.branchPointElevation f.branchPointHeight x.1 x.2) (.empty, [])
  else .ok (.empty, [])

/-- `BuildMeshes`, src/maliput/utility/generate_obj.cc:981-1050, for a road geometry that is not null. -/
def buildMeshes (env : Env) (f : Features) (rg : RoadGeometry) : Except Stop (Map String (GeoMesh × Material)) := do
  let w ← walkJunctions env f rg
  let branchPoints ← renderBranchPoints env f rg
  let meshes : Map String (GeoMesh × Material) := .empty
  let meshes := meshes.set "asphalt" (w.normal.asphalt, ← lift (materialByName "bland_asphalt"))
  let meshes := meshes.set "lane" (w.normal.lane, ← lift (materialByName "lane_haze"))
  let meshes := meshes.set "marker" (w.normal.marker, ← lift (materialByName "marker_paint"))
  let meshes := meshes.set "h_bounds" (w.normal.hBounds, ← lift (materialByName "h_bounds_haze"))
  let meshes := meshes.set "branch_point" (branchPoints.1, ← lift (materialByName "branch_point_glow"))
  let meshes := meshes.set "grayed_asphalt" (w.grayedAsphalt, ← lift (materialByName "grayed_bland_asphalt"))
  let meshes := meshes.set "grayed_lane" (w.grayedLane, ← lift (materialByName "grayed_lane_haze"))
  let meshes := meshes.set "grayed_marker" (w.grayedMarker, ← lift (materialByName "grayed_marker_paint"))
  let meshes := meshes.set "sidewalk" (.empty, ← lift (materialByName "sidewalk"))
  return meshes

/-! ### Files -/

/-- The `n` last digits of a number. -/
def lastDigits : ℕ → ℕ → List Char
  | 0, _ => []
  | n + 1, k => lastDigits n (k / 10) ++ [Nat.digitChar (k % 10)]

/-- The digits of a number. -/
def wholeDigits (k : ℕ) : List Char := if k = 0 then ['0'] else ((Nat.digits 10 k).reverse.map Nat.digitChar)

/-- A number that is not negative, rounded to a whole number; of two that are equally near, the even one. -/
def roundEven (x : ℚ) : ℕ :=
  let n := ⌊x⌋₊
  if x - n < 1 / 2 then n else if x - n = 1 / 2 then (if n % 2 = 0 then n else n + 1) else n + 1

/-- `to_str`, src/maliput/utility/string_format.cc:39-44: `std::fixed` with the given number of digits after the decimal
point, rounded to the nearest such number.  There is no negative zero. -/
def toStr (x : ℚ) (precision : ℤ) : Except Err String := do
  throwUnless (decide (precision ≥ 0))
  let n := precision.toNat
  let k := roundEven (|x| * 10 ^ n)
  return String.ofList ((if x < 0 then ['-'] else []) ++ wholeDigits (k / 10 ^ n) ++
    (if n = 0 then [] else '.' :: lastDigits n k))

/-- Some number of digits suffices. -/
theorem exists_precision {tolerance : ℚ} (h : 0 < tolerance) : ∃ n : ℕ, 75 ≤ (10 ^ n * tolerance) ^ 2 := by
  obtain ⟨n, hn⟩ := pow_unbounded_of_one_lt (9 / tolerance) (by norm_num : (1 : ℚ) < 10)
  refine ⟨n, ?_⟩
  rw [div_lt_iff₀ h] at hn
  nlinarith

/-- The precision, src/maliput/utility/generate_obj.cc:1078: `max(0, ceil(log10(sqrt(3) * 5) - log10(tolerance)))`, which is
the least number `n` with `sqrt(3) * 5 ≤ 10^n * tolerance`; rounding errors of the logarithms are left out.  For zero the
difference is infinite and its conversion to `int` undefined; for a negative number it is not a number and `std::max`
returns zero. -/
def precision (tolerance : ℚ) : Except Err ℕ :=
  if h : 0 < tolerance then .ok (Nat.find (exists_precision h))
  else if tolerance = 0 then .error .ub
  else .ok 0

/-- Three numbers as text. -/
structure Text3 where
  x : String
  y : String
  z : String
  deriving DecidableEq

/-- Three numbers as text. -/
def text3 (p : Pos) (precision : ℕ) : Except Err Text3 := do
  return ⟨← toStr (p 0) precision, ← toStr (p 1) precision, ← toStr (p 2) precision⟩

/-- The text of a line of `EmitObj`, include/maliput/utility/mesh.h:245-254. -/
def formatLine (precision : ℕ) (origin : Pos) : Mesh.Line Pos Pos → Except Err (Mesh.Line Text3 Text3)
  | .v x => do return .v (← text3 (fun i => x i - origin i) precision)
  | .vn n => do return .vn (← text3 n precision)
  | .f ids => .ok (.f ids)
  | .other s => .ok (.other s)

/-- `std::to_string(double)`: six digits after the decimal point. -/
def row (v : ℚ × ℚ × ℚ) : Except Err Text3 := do return ⟨← toStr v.1 6, ← toStr v.2.1 6, ← toStr v.2.2 6⟩

/-- The text of a material. -/
structure MaterialText where
  newmtl : String
  ka : Text3
  kd : Text3
  ks : Text3
  ns : String
  d : String
  deriving DecidableEq

/-- `FormatMaterial`, src/maliput/utility/generate_obj.cc:94-99. -/
def formatMaterial (m : Material) (precision : ℕ) : Except Err MaterialText := do
  return { newmtl := m.name, ka := ← row m.ambient, kd := ← row m.diffuse, ks := ← row m.specular,
           ns := ← toStr m.shininess 6, d := ← toStr (1 - m.transparency) precision }

/-- The two files. -/
structure Files where
  objName : String
  mtllib : String
  obj : List (Mesh.Line Text3 Text3)
  mtlName : String
  mtl : List MaterialText

/-- `meshes["..."].first`, src/maliput/utility/generate_obj.cc:1064-1072. -/
def meshOf (meshes : Map String (GeoMesh × Material)) (key : String) : GeoMesh :=
  match meshes.get? key with
  | some m => m.1
  | none => .empty

/-- `GenerateObjFile`, src/maliput/utility/generate_obj.cc:1058-1145, for a road geometry that is not null: what is
written, without the comments at the beginning of the files, if they can be opened.  The materials are in the order of
their keys. -/
def generateObjFile (env : Env) (f : Features) (rg : RoadGeometry) (fileroot : String) : Except Stop Files := do
  let meshes ← buildMeshes env f rg
  let precision ← lift (precision rg.linearTolerance)
  lift (throwUnless (decide (rg.linearTolerance > 0)))
  let lines := Mesh.emitAll 0 0 [(meshOf meshes "asphalt", "bland_asphalt"), (meshOf meshes "lane", "lane_haze"),
    (meshOf meshes "marker", "marker_paint"), (meshOf meshes "branch_point", "branch_point_glow"),
    (meshOf meshes "grayed_asphalt", "grayed_bland_asphalt"), (meshOf meshes "grayed_lane", "grayed_lane_haze"),
    (meshOf meshes "grayed_marker", "grayed_marker_paint"), (meshOf meshes "h_bounds", "h_bounds_haze"),
    (meshOf meshes "sidewalk", "sidewalk")]
  let obj ← lift (lines.mapM (formatLine precision f.origin))
  let keys := ["asphalt", "branch_point", "grayed_asphalt", "grayed_lane", "grayed_marker", "h_bounds", "lane", "marker",
    "sidewalk"]
  let mtl ← lift ((keys.filterMap fun key => if key == "sidewalk" then none else meshes.get? key).mapM fun m =>
    formatMaterial m.2 precision)
  return ⟨fileroot ++ ".obj", fileroot ++ ".mtl", obj, fileroot ++ ".mtl", mtl⟩

/-! ### BuildMesh -/

/-- The overload of `BuildMesh` for lanes, src/maliput/utility/generate_obj.cc:784-869.  An unknown lane is a null
pointer that is used. -/
def buildLaneMesh (env : Env) (f : Features) (rg : RoadGeometry) (id : String) (t : MaterialType) :
    Except Stop (GeoMesh × Material) := do
  lift (throwUnless (decide (t ≠ .branchPointGlow)))
  match rg.laneById id with
  | none => .error (.err .ub)
  | some l => do
    let tolerance := l.linearTolerance
    let g := baseGridUnit f l tolerance
    let mesh ← (match t with
      | .asphalt | .grayedAsphalt => addFaces env f l .empty (cover env f l g false fun _ _ => 0)
      | .lane | .grayedLane =>
        if f.drawLaneHaze then addFaces env f l .empty (cover env f l g false fun _ _ => f.laneHazeElevation)
        else .ok .empty
      | .marker | .grayedMarker => do
        let gridUnit := pickGridUnit l f.maxGridUnit f.minGridResolution tolerance
        let marker ← (if f.drawStripes then
          addFaces env f l .empty (stripes env.bound l gridUnit f.stripeElevation f.stripeWidth) else .ok .empty)
        if f.drawArrows then addFaces env f l marker (lift (markLaneEnds l gridUnit f.arrowElevation)) else .ok marker
      | .hBounds =>
        if f.drawElevationBounds then do
          let upper ← addFaces env f l .empty (cover env f l g false fun s r => (l.elevationBounds s r).max)
          addFaces env f l upper (cover env f l g false fun s r => (l.elevationBounds s r).min)
        else .ok .empty
      | .branchPointGlow | .sidewalk => .error (.err .throws))
    return (mesh, ← lift (materialFromMesh t))

/-- The overload of `BuildMesh` for branch points, src/maliput/utility/generate_obj.cc:871-891. -/
def buildBranchPointMesh (f : Features) (rg : RoadGeometry) (id : String) (t : MaterialType) :
    Except Err (GeoMesh × Material) := do
  throwUnless (decide (t = .branchPointGlow))
  match rg.branchPointById id with
  | none => .error .ub
  | some bp => do
    let e ← referenceEnd bp
    let m ← drawBranch f.branchPointElevation f.branchPointHeight e true .empty
    let m ← drawArrows f.branchPointElevation f.branchPointHeight bp.aSide m
    let m ← drawArrows f.branchPointElevation f.branchPointHeight bp.bSide m
    return (m, ← materialFromMesh t)

/-- The overload of `BuildMesh` for segments, src/maliput/utility/generate_obj.cc:893-918.  Null pointers are used
without a check. -/
def buildSegmentMesh (env : Env) (f : Features) (rg : RoadGeometry) (id : String) (t : MaterialType) :
    Except Stop (GeoMesh × Material) := do
  lift (throwUnless (decide (t = .asphalt) || decide (t = .grayedAsphalt)))
  match rg.segmentById id with
  | some ⟨_, some l :: _, some tolerance⟩ => do
    let mesh ← addFaces env f l .empty (cover env f l (baseGridUnit f l tolerance) true fun _ _ => 0)
    return (mesh, ← lift (materialFromMesh t))
  | _ => .error (.err .ub)

/-! ### BuildRoadGeometryMesh -/

/-- A map of meshes with their materials. -/
abbrev Meshes := Map String (GeoMesh × Material)

/-- `RoadGeometryMesh`, include/maliput/utility/generate_obj.h:121-134. -/
structure RoadGeometryMesh where
  asphalt : Meshes
  grayedAsphalt : Meshes
  hBounds : Meshes
  laneLane : Meshes
  laneMarker : Meshes
  laneGrayedLane : Meshes
  laneGrayedMarker : Meshes
  branchPoint : Meshes
  sidewalk : Meshes

/-- What the loops of `BuildRoadGeometryMesh` change, src/maliput/utility/generate_obj.cc:922-934. -/
structure Tour where
  walk : Walk
  laneLane : Meshes
  laneMarker : Meshes
  laneGrayedLane : Meshes
  laneGrayedMarker : Meshes

/-- The loops over lanes, src/maliput/utility/generate_obj.cc:944-948 and 952-958.  Null pointers are used without a
check. -/
def tourLane (env : Env) (f : Features) (rg : RoadGeometry) (normal : Bool) (t : Tour) : Option Lane → Except Stop Tour
  | none => .error (.err .ub)
  | some l =>
    if normal then do
      let lane ← buildLaneMesh env f rg l.id .lane
      let marker ← buildLaneMesh env f rg l.id .marker
      return { t with laneLane := t.laneLane.set ("lane_" ++ l.id) lane,
                      laneMarker := t.laneMarker.set ("marker_" ++ l.id) marker }
    else do
      let lane ← buildLaneMesh env f rg l.id .grayedLane
      let marker ← buildLaneMesh env f rg l.id .grayedMarker
      return { t with laneGrayedLane := t.laneGrayedLane.set ("grayed_lane_" ++ l.id) lane,
                      laneGrayedMarker := t.laneGrayedMarker.set ("grayed_marker_" ++ l.id) marker }

/-- The loop over segments, src/maliput/utility/generate_obj.cc:940-960. -/
def tourSegment (env : Env) (f : Features) (rg : RoadGeometry) (t : Tour) : Option Segment → Except Stop Tour
  | none => .error (.err .ub)
  | some segment => do
    let w ← walkSegment env f t.walk (some segment)
    segment.lanes.foldlM (tourLane env f rg (renderedNormally segment.id f.highlightedSegments)) { t with walk := w }

/-- The loop over junctions, src/maliput/utility/generate_obj.cc:938-961. -/
def tourJunctions (env : Env) (f : Features) (rg : RoadGeometry) : Except Stop Tour :=
  rg.junctions.foldlM (fun t junction => match junction with
    | none => .error (.err .ub)
    | some segments => segments.foldlM (tourSegment env f rg) t) ⟨.new, .empty, .empty, .empty, .empty⟩

/-- The loop over branch points, src/maliput/utility/generate_obj.cc:963-969. -/
def tourBranchPoints (f : Features) (rg : RoadGeometry) : Except Stop Meshes :=
  if f.drawBranchPoints then
    rg.branchPoints.foldlM (fun m bp => match bp with
      | none => .error (.err .ub)
      | some bp => do
        let mesh ← lift (buildBranchPointMesh f rg bp.id .branchPointGlow)
        return m.set ("branch_point_" ++ bp.id) mesh) .empty
  else .ok .empty

/-- `BuildRoadGeometryMesh`, src/maliput/utility/generate_obj.cc:920-979. -/
def buildRoadGeometryMesh (env : Env) (f : Features) (rg : RoadGeometry) : Except Stop RoadGeometryMesh := do
  let t ← tourJunctions env f rg
  let branchPoint ← tourBranchPoints f rg
  return {
    asphalt := Map.empty.set "asphalt" (t.walk.normal.asphalt, ← lift (materialByName "bland_asphalt"))
    grayedAsphalt := Map.empty.set "grayed_asphalt" (t.walk.grayedAsphalt, ← lift (materialByName "grayed_bland_asphalt"))
    hBounds := Map.empty.set "h_bounds" (t.walk.normal.hBounds, ← lift (materialByName "h_bounds_haze"))
    laneLane := t.laneLane
    laneMarker := t.laneMarker
    laneGrayedLane := t.laneGrayedLane
    laneGrayedMarker := t.laneGrayedMarker
    branchPoint := branchPoint
    sidewalk := Map.empty.set "sidewalk" (.empty, ← lift (materialByName "sidewalk")) }

end Maliput.GenerateObj
