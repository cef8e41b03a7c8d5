import Mathlib.Data.Fin.VecNotation
import Mathlib.Data.Fintype.Basic
import Mathlib.Data.Rat.Floor
import Verif.Model.Graph
import Verif.Model.Mesh

set_option autoImplicit false

/-!
Model of the part of src/maliput/utility/generate_obj.cc that makes faces for a lane: covering it with triangles or
quadrilaterals, stripes, arrows and the size of the grid.  The geometry of lanes is a parameter.  Each of the
functions that push faces into a mesh is modelled by the list of the faces it makes in the order in which they are
pushed; `pushFaces` pushes them.  Loops whose end depends on numbers get a bound of their iterations and end with
`Stop.depth` when they reach it.
-/
namespace Maliput.RoadMesh

open Maliput.RouteGraph (Stop lift)

/-- `RBounds`, include/maliput/api/lane_data.h:354-392: its constructor and setters throw unless the bounds contain
zero. -/
structure RBounds where
  min : ℚ
  max : ℚ
  min_le : min ≤ 0
  le_max : 0 ≤ max

/-- `HBounds`, include/maliput/api/lane_data.h:398-436. -/
abbrev HBounds := RBounds

/-- `LanePosition`, include/maliput/api/lane_data.h. -/
@[ext] structure Srh where
  s : ℚ
  r : ℚ
  h : ℚ
  deriving DecidableEq

/-- `InertialPosition` and `Vector3`. -/
abbrev Pos := Fin 3 → ℚ

/-- What is used of a `Lane`, and the tolerance of its road geometry. -/
structure Lane where
  id : String
  /-- `length()` -/
  length : ℚ
  /-- `lane_bounds(s)` -/
  laneBounds : ℚ → RBounds
  /-- `segment_bounds(s)` -/
  segmentBounds : ℚ → RBounds
  /-- `elevation_bounds(s, r)` -/
  elevationBounds : ℚ → ℚ → HBounds
  /-- `ToInertialPosition` -/
  toInertial : Srh → Pos
  /-- `GetOrientation`, the rows of the rotation matrix -/
  orientation : Srh → Fin 3 → Pos
  /-- `segment()->junction()->road_geometry()->linear_tolerance()` -/
  linearTolerance : ℚ

/-- `SrhFace`, include/maliput/utility/mesh.h:293-312. -/
structure SrhFace where
  vertices : List Srh
  normal : Srh
  deriving DecidableEq

/-- `GetOrientation(srh).quat() * v`: the product of the rotation with a vector. -/
def rotate (rows : Fin 3 → Pos) (v : Pos) : Pos := fun i => rows i 0 * v 0 + rows i 1 * v 1 + rows i 2 * v 2

/-- A `Srh` as a vector. -/
def Srh.vec (p : Srh) : Pos := ![p.s, p.r, p.h]

/-- The loop body of `SrhFace::ToGeoFace`, include/maliput/utility/mesh.h:301-305. -/
def toVn (l : Lane) (normal : Srh) (v : Srh) : Pos × Pos := (l.toInertial v, rotate (l.orientation v) normal.vec)

/-- `SrhFace::ToGeoFace`, include/maliput/utility/mesh.h:299-307. -/
def SrhFace.toGeoFace (f : SrhFace) (l : Lane) : Mesh.GeoFace Pos Pos :=
  f.vertices.foldl (fun g v => g.pushVn (toVn l f.normal v).1 (toVn l f.normal v).2) ⟨[], []⟩

/-- Pushes faces into a mesh: `mesh->PushFace(face.ToGeoFace(lane))`, for example
src/maliput/utility/generate_obj.cc:194-195. -/
def pushFaces (l : Lane) (m : Mesh.GeoMesh Pos Pos) (fs : List SrhFace) : Except Err (Mesh.GeoMesh Pos Pos) :=
  fs.foldlM (fun m f => m.pushFace (f.toGeoFace l)) m

/-- `LanePosition{0., 0., 1.}`. -/
def up : Srh := ⟨0, 0, 1⟩

/-! ### ComputeSampleStep -/

/-- The condition that ends the loop because the tolerance is violated,
src/maliput/utility/generate_obj.cc:119-122 and 130-150.  `dist` is the distance of two positions. -/
def tooFar (dist : Pos → Pos → ℚ) (l : Lane) (s0 g step : ℚ) : Bool :=
  let s := s0 + step
  let center := dist (l.toInertial ⟨s0, 0, 0⟩) (l.toInertial ⟨s, 0, 0⟩)
  let left := dist (l.toInertial ⟨s0, (l.laneBounds s0).max, 0⟩) (l.toInertial ⟨s, (l.laneBounds s).max, 0⟩)
  let right := dist (l.toInertial ⟨s0, (l.laneBounds s0).min, 0⟩) (l.toInertial ⟨s, (l.laneBounds s).min, 0⟩)
  decide (|center - step| > g) || decide (|left - step| > g) || decide (|right - step| > g)

/-- The loop, src/maliput/utility/generate_obj.cc:127-160. -/
def sampleStepLoop (dist : Pos → Pos → ℚ) (l : Lane) (s0 g : ℚ) : ℕ → ℚ → Except Stop ℚ
  | 0, _ => .error .depth
  | n + 1, best =>
    let proposed := min (best * 2) (l.length - s0)
    if tooFar dist l s0 g proposed then .ok best
    else if |s0 + proposed - l.length| < g then .ok (max (min 0 proposed) l.length)
    else sampleStepLoop dist l s0 g n proposed

/-- `ComputeSampleStep`, src/maliput/utility/generate_obj.cc:112-164. -/
def sampleStep (dist : Pos → Pos → ℚ) (n : ℕ) (l : Lane) (s0 g : ℚ) : Except Stop ℚ := do
  let best ← sampleStepLoop dist l s0 g n (min g (l.length - s0))
  return min best (l.length - s0)

/-! ### CoverLaneWithQuads -/

/-- `use_segment_bounds ? lane->segment_bounds(s) : lane->lane_bounds(s)`. -/
def bounds (l : Lane) (useSegmentBounds : Bool) (s : ℚ) : RBounds :=
  if useSegmentBounds then l.segmentBounds s else l.laneBounds s

/-- A vertex `{s, r, elevation(s, r)}`. -/
def vertex (elevation : ℚ → ℚ → ℚ) (s r : ℚ) : Srh := ⟨s, r, elevation s r⟩

/-- The two triangles, src/maliput/utility/generate_obj.cc:186-193. -/
def triangles (elevation : ℚ → ℚ → ℚ) (s0 s1 : ℚ) (b0 b1 : RBounds) : List SrhFace :=
  [⟨[vertex elevation s0 b0.max, vertex elevation s0 b0.min, vertex elevation s1 b1.max], up⟩,
   ⟨[vertex elevation s0 b0.min, vertex elevation s1 b1.min, vertex elevation s1 b1.max], up⟩]

/-- The loop of `GenerateOptimizedRoadMesh`, src/maliput/utility/generate_obj.cc:173-196. -/
def optimizedLoop (dist : Pos → Pos → ℚ) (bound : ℕ) (l : Lane) (g : ℚ) (seg : Bool) (elevation : ℚ → ℚ → ℚ) :
    ℕ → ℚ → Except Stop (List SrhFace)
  | 0, _ => .error .depth
  | n + 1, s0 =>
    if s0 < l.length then do
      let step ← sampleStep dist bound l s0 g
      let s1 := s0 + step
      let rest ← optimizedLoop dist bound l g seg elevation n s1
      return triangles elevation s0 s1 (bounds l seg s0) (bounds l seg s1) ++ rest
    else return []

/-- The end of the strip that starts at `s0`, src/maliput/utility/generate_obj.cc:205-208 and 299-302. -/
def nextStation (g tol smax s0 : ℚ) : ℚ :=
  let s1 := s0 + g
  if s1 > smax - tol then smax else s1

/-- The left side of the lane, src/maliput/utility/generate_obj.cc:213-236. -/
def leftLoop (elevation : ℚ → ℚ → ℚ) (g s0 s1 max0 max1 : ℚ) : ℕ → ℚ → ℚ → Except Stop (List SrhFace)
  | 0, _, _ => .error .depth
  | n + 1, r00, r10 =>
    if r00 < max0 ∧ r10 < max1 then do
      let r01 := min (r00 + g) max0
      let r11 := min (r10 + g) max1
      let rest ← leftLoop elevation g s0 s1 max0 max1 n (r00 + g) (r10 + g)
      return ⟨[vertex elevation s0 r00, vertex elevation s1 r10, vertex elevation s1 r11, vertex elevation s0 r01], up⟩
        :: rest
    else return []

/-- The right side of the lane, src/maliput/utility/generate_obj.cc:237-260. -/
def rightLoop (elevation : ℚ → ℚ → ℚ) (g s0 s1 min0 min1 : ℚ) : ℕ → ℚ → ℚ → Except Stop (List SrhFace)
  | 0, _, _ => .error .depth
  | n + 1, r00, r10 =>
    if r00 > min0 ∧ r10 > min1 then do
      let r01 := max (r00 - g) min0
      let r11 := max (r10 - g) min1
      let rest ← rightLoop elevation g s0 s1 min0 min1 n (r00 - g) (r10 - g)
      return ⟨[vertex elevation s0 r00, vertex elevation s0 r01, vertex elevation s1 r11, vertex elevation s1 r10], up⟩
        :: rest
    else return []

/-- The loop of `GeneratePreciseRoadMesh`, src/maliput/utility/generate_obj.cc:202-261. -/
def preciseLoop (bound : ℕ) (l : Lane) (g : ℚ) (seg : Bool) (elevation : ℚ → ℚ → ℚ) :
    ℕ → ℚ → Except Stop (List SrhFace)
  | 0, _ => .error .depth
  | n + 1, s0 =>
    if s0 < l.length then do
      let s1 := nextStation g l.linearTolerance l.length s0
      let b0 := bounds l seg s0
      let b1 := bounds l seg s1
      let left ← leftLoop elevation g s0 s1 b0.max b1.max bound 0 0
      let right ← rightLoop elevation g s0 s1 b0.min b1.min bound 0 0
      let rest ← preciseLoop bound l g seg elevation n s1
      return left ++ right ++ rest
    else return []

/-- `CoverLaneWithQuads`, src/maliput/utility/generate_obj.cc:276-284. -/
def coverLane (dist : Pos → Pos → ℚ) (bound : ℕ) (l : Lane) (g : ℚ) (seg : Bool) (elevation : ℚ → ℚ → ℚ)
    (optimize : Bool) : Except Stop (List SrhFace) :=
  if optimize then optimizedLoop dist bound l g seg elevation bound 0
  else preciseLoop bound l g seg elevation bound 0

/-! ### Stripes -/

/-- One stripe, src/maliput/utility/generate_obj.cc:309-313 and 318-322. -/
def stripe (s0 s1 r0 r1 half h : ℚ) : SrhFace :=
  ⟨[⟨s0, r0 - half, h⟩, ⟨s1, r1 - half, h⟩, ⟨s1, r1 + half, h⟩, ⟨s0, r0 + half, h⟩], up⟩

/-- The loop of `StripeLaneBounds`, src/maliput/utility/generate_obj.cc:296-325. -/
def stripeLoop (l : Lane) (g h half : ℚ) : ℕ → ℚ → Except Stop (List SrhFace)
  | 0, _ => .error .depth
  | n + 1, s0 =>
    if s0 < l.length then do
      let s1 := nextStation g l.linearTolerance l.length s0
      let b0 := l.laneBounds s0
      let b1 := l.laneBounds s1
      let rest ← stripeLoop l g h half n s1
      return stripe s0 s1 b0.max b1.max half h :: stripe s0 s1 b0.min b1.min half h :: rest
    else return []

/-- `StripeLaneBounds`, src/maliput/utility/generate_obj.cc:294-326. -/
def stripes (bound : ℕ) (l : Lane) (g h width : ℚ) : Except Stop (List SrhFace) :=
  stripeLoop l g h (1 / 2 * width) bound 0

/-! ### Arrows -/

/-- The left half of a row of an arrow: `count` quadrilaterals and a triangle,
src/maliput/utility/generate_obj.cc:366-392. -/
def arrowLeft (s0 s1 h unit : ℚ) : ℕ → ℚ → ℚ → List SrhFace
  | 0, r00, r10 => [⟨[⟨s0, r00, h⟩, ⟨s1, r10, h⟩, ⟨s0, r00 + unit, h⟩], up⟩]
  | n + 1, r00, r10 =>
    ⟨[⟨s0, r00, h⟩, ⟨s1, r10, h⟩, ⟨s1, r10 + unit, h⟩, ⟨s0, r00 + unit, h⟩], up⟩ ::
      arrowLeft s0 s1 h unit n (r00 + unit) (r10 + unit)

/-- The right half of a row of an arrow, src/maliput/utility/generate_obj.cc:393-421. -/
def arrowRight (s0 s1 h unit : ℚ) : ℕ → ℚ → ℚ → List SrhFace
  | 0, r00, r10 => [⟨[⟨s0, r00, h⟩, ⟨s0, r00 - unit, h⟩, ⟨s1, r10, h⟩], up⟩]
  | n + 1, r00, r10 =>
    ⟨[⟨s0, r00, h⟩, ⟨s0, r00 - unit, h⟩, ⟨s1, r10 - unit, h⟩, ⟨s1, r10, h⟩], up⟩ ::
      arrowRight s0 s1 h unit n (r00 - unit) (r10 - unit)

/-- The loop of `DrawLaneArrow`, src/maliput/utility/generate_obj.cc:362-424: `rows` more rows, the first of which is
row `si`.  There are as many units in a row as rows left. -/
def arrowRows (offset h sUnit rlUnit rrUnit : ℚ) : ℕ → ℕ → List SrhFace
  | 0, _ => []
  | rows + 1, si =>
    let s0 := offset + si * sUnit
    let s1 := offset + (si + 1) * sUnit
    arrowLeft s0 s1 h rlUnit rows 0 0 ++ arrowRight s0 s1 h rrUnit rows 0 0 ++
      arrowRows offset h sUnit rlUnit rrUnit rows (si + 1)

/-- `DrawLaneArrow`, src/maliput/utility/generate_obj.cc:339-425.  Integers are unbounded. -/
def drawArrow (l : Lane) (g offset size h : ℚ) : Except Err (List SrhFace) :=
  if offset < 0 ∨ offset + size > l.length then .error .aborts
  else
    let b := l.laneBounds offset
    let rlSize := b.max * (4 / 5)
    let rrSize := -b.min * (4 / 5)
    let units : ℤ := max ⌈size / g⌉ (max ⌈rlSize / g⌉ ⌈rrSize / g⌉)
    if units < 1 then .error .aborts
    else .ok (arrowRows offset h (size / units) (rlSize / units) (rrSize / units) units.toNat 0)

/-- `MarkLaneEnds`, src/maliput/utility/generate_obj.cc:437-459. -/
def markLaneEnds (l : Lane) (g h : ℚ) : Except Err (List SrhFace) := do
  let nudge := l.linearTolerance
  let maxLength := 3 / 10 * l.length
  let b0 := l.laneBounds 0
  let size0 := min maxLength (b0.max - b0.min)
  let b1 := l.laneBounds l.length
  let size1 := min maxLength (b1.max - b1.min)
  let start ← (if nudge + size0 < l.length ∧ size0 > nudge then drawArrow l g (0 + nudge) size0 h else .ok [])
  let finish ← (if l.length - nudge - size1 > 0 ∧ size1 > nudge then
    drawArrow l g (l.length - size1 - nudge) size1 h else .ok [])
  return start ++ finish

/-! ### PickGridUnit -/

/-- `std::min(result, x / resolution)`: for a resolution of zero the quotient is infinite, or not a number if `x` is
zero as well, and `std::min` returns `result`. -/
def minQuotient (result x resolution : ℚ) : ℚ := if resolution = 0 then result else min result (x / resolution)

/-- `PickGridUnit`, src/maliput/utility/generate_obj.cc:471-490. -/
def pickGridUnit (l : Lane) (maxSize resolution tol : ℚ) : ℚ :=
  let b0 := l.laneBounds 0
  let width0 := max (b0.max - b0.min) tol
  let b1 := l.laneBounds l.length
  let width1 := max (b1.max - b1.min) tol
  let length := max l.length tol
  let result := minQuotient maxSize width0 resolution
  let result := minQuotient result width1 resolution
  let result := minQuotient result length resolution
  max result tol

end Maliput.RoadMesh
