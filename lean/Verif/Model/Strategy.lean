import Mathlib.Data.Rat.Floor
import Verif.Model.KdTree

set_option autoImplicit false

/-!
Model of the road position queries of a road geometry: src/maliput/geometry_base/{brute_force_strategy,
brute_force_find_road_positions_strategy,filter_positions,strategy_base,kd_tree_strategy}.cc and the
forwarding functions of src/maliput/geometry_base/road_geometry.cc:66-83.
The lanes' geometry (`ToLanePosition`, `lane_bounds`, …) is an arbitrary parameter.  The radius is a rational
or infinite.  The pointers to junctions, segments and lanes held by a road geometry are not null.
-/
namespace Maliput.Strategy
open Maliput

/-- `InertialPosition`. -/
abbrev Pos := Fin 3 → ℚ

/-- `LanePositionResult`, include/maliput/api/lane_data.h. -/
structure LanePositionResult where
  s : ℚ
  r : ℚ
  h : ℚ
  nearest : Pos
  distance : ℚ
  deriving DecidableEq

/-- `RoadPositionResult`, include/maliput/api/lane_data.h. -/
structure RoadPositionResult (L : Type) where
  lane : L
  s : ℚ
  r : ℚ
  h : ℚ
  nearest : Pos
  distance : ℚ
  deriving DecidableEq

/-- What the strategies use of a `RoadGeometry`; `L` are the (pointers to the) lanes. -/
structure Geometry (L : Type) where
  /-- `junction(i)->segment(j)->lane(k)` -/
  junctions : List (List (List L))
  /-- `Lane::ToLanePosition` -/
  toLanePosition : L → Pos → LanePositionResult
  /-- `Lane::lane_bounds(s)`: minimum and maximum -/
  laneBounds : L → ℚ → ℚ × ℚ
  /-- `Lane::length` -/
  length : L → ℚ
  /-- `Lane::ToInertialPosition` of (s, r, 0) -/
  toInertialPosition : L → ℚ → ℚ → Pos
  linearTolerance : ℚ

variable {L : Type}

/-- `{RoadPosition(lane, result.lane_position), result.nearest_position, result.distance}`, where `result`
is `lane->ToLanePosition(pos)`: src/maliput/geometry_base/brute_force_strategy.cc:99-100. -/
def Geometry.resultOn (g : Geometry L) (pos : Pos) (l : L) : RoadPositionResult L :=
  let p := g.toLanePosition l pos
  ⟨l, p.s, p.r, p.h, p.nearest, p.distance⟩

/-- `radius == infinity || result.distance <= radius`. -/
def within (radius : WithTop ℚ) (distance : ℚ) : Bool :=
  decide (radius = ⊤) || decide ((distance : WithTop ℚ) ≤ radius)

/-- `BruteForceStrategy::DoFindRoadPositions`, src/maliput/geometry_base/brute_force_strategy.cc:79-107, and
the identical `BruteForceFindRoadPositionsStrategy`,
src/maliput/geometry_base/brute_force_find_road_positions_strategy.cc:42-69. -/
def findRoadPositions (g : Geometry L) (pos : Pos) (radius : WithTop ℚ) : Except Err (List (RoadPositionResult L)) := do
  throwUnless (decide (((0 : ℚ) : WithTop ℚ) ≤ radius))
  return g.junctions.foldl (fun acc junction => junction.foldl (fun acc segment => segment.foldl (fun acc lane =>
    if within radius (g.toLanePosition lane pos).distance then acc ++ [g.resultOn pos lane] else acc) acc) acc) []

/-- `FilterRoadPositionResults`, src/maliput/geometry_base/filter_positions.cc:38-45. -/
def filterRoadPositionResults (rs : List (RoadPositionResult L)) (f : RoadPositionResult L → Bool) :
    List (RoadPositionResult L) := rs.filter f

/-- `is_within_lane_bounds`, src/maliput/geometry_base/strategy_base.cc:48-50. -/
def isWithinLaneBounds (r : ℚ) (bounds : ℚ × ℚ) : Bool := decide (r ≥ bounds.1) && decide (r < bounds.2)

/-- The comparison threshold `1e-12`. -/
def kEps : ℚ := 1 / 10 ^ 12

/-- `IsNewRoadPositionResultCloser`, src/maliput/geometry_base/strategy_base.cc:38-75. -/
def isCloser (g : Geometry L) (new cur : RoadPositionResult L) : Bool :=
  let delta := new.distance - cur.distance
  if delta < -kEps then true
  else if delta ≥ kEps then false
  else
    let newIn := isWithinLaneBounds new.r (g.laneBounds new.lane new.s)
    let curIn := isWithinLaneBounds cur.r (g.laneBounds cur.lane cur.s)
    if (newIn && curIn) || (!newIn && !curIn) then
      if |new.r| < |cur.r| then true else false
    else if newIn && !curIn then true
    else false

/-- The loop `for (r : rs) if (IsNewRoadPositionResultCloser(r, result)) result = r;`. -/
def pickClosest (g : Geometry L) (rs : List (RoadPositionResult L)) (init : RoadPositionResult L) :
    RoadPositionResult L :=
  rs.foldl (fun cur r => if isCloser g r cur then r else cur) init

/-- `BruteForceStrategy::DoToRoadPosition`, src/maliput/geometry_base/brute_force_strategy.cc:45-77.  A hint
whose lane is null is `some none`. -/
def toRoadPosition (g : Geometry L) (pos : Pos) (hint : Option (Option L)) : Except Err (RoadPositionResult L) :=
  match hint with
  | some none => .error .throws
  | some (some l) => .ok (g.resultOn pos l)
  | none => do
    let rs ← findRoadPositions g pos ⊤
    throwUnless (!rs.isEmpty)
    let near := filterRoadPositionResults rs (fun r => decide (r.distance ≤ g.linearTolerance))
    let filtered := if near.isEmpty then rs else near
    match filtered with
    | [] => .error .ub
    | r :: rest => return pickClosest g (r :: rest) r

/-! ### KDTreeStrategy -/

/-- `for (x = start; x <= stop; x += step)`: the values of `x`.  For `step ≤ 0` the C++ loop does not
terminate (unless `start > stop`); the model is only used with `step > 0`, for which the fuel suffices. -/
def sampleLoop (step stop : ℚ) : ℕ → ℚ → List ℚ
  | 0, _ => []
  | n + 1, x => if x ≤ stop then x :: sampleLoop step stop n (x + step) else []

/-- As `sampleLoop`, with enough fuel. -/
def samples (start stop step : ℚ) : List ℚ := sampleLoop step stop (⌊(stop - start) / step⌋₊ + 1) start

/-- `MaliputPoint`, include/maliput/geometry_base/kd_tree_strategy.h:54-76: a position and its lane. -/
abbrev MaliputPoint (L : Type) := Pos × L

/-- The points that the constructor samples, src/maliput/geometry_base/kd_tree_strategy.cc:45-54.  `lanes`
is `ById().GetLanes()`, whose order is unspecified. -/
def samplePoints (g : Geometry L) (lanes : List L) (step : ℚ) : List (MaliputPoint L) :=
  lanes.flatMap fun l => (samples 0 (g.length l) step).flatMap fun s =>
    (samples (g.laneBounds l s).1 (g.laneBounds l s).2 step).map fun r => (g.toInertialPosition l s r, l)

/-- The members of `KDTreeStrategy`: the tree (with and without regions: they have the same points and
shape) and the step. -/
structure KdStrategy (L : Type) where
  tree : KdTree.Tree 3 (MaliputPoint L)
  rtree : KdTree.RTree (MaliputPoint L)
  step : ℚ

/-- The coordinates of a `MaliputPoint`. -/
def coordOf (p : MaliputPoint L) : Fin 3 → ℚ := p.1

/-- The constructor, src/maliput/geometry_base/kd_tree_strategy.cc:41-56. -/
def KdStrategy.make (nth : KdTree.NthElement (coordOf (L := L))) (g : Geometry L) (lanes : List L) (step : ℚ) :
    Except Err (KdStrategy L) := do
  let points := samplePoints g lanes step
  let tree ← KdTree.make nth points
  let rtree ← KdTree.make3d nth points
  return ⟨tree, rtree, step⟩

/-- `ClosestLanes`, src/maliput/geometry_base/kd_tree_strategy.cc:113-125. -/
def closestLanes (k : KdStrategy L) (pos : Pos) (halfEdge : WithTop ℚ) : Except Err (List L) := do
  let minCorner : Vec3 := fun i => match halfEdge with
    | ⊤ => Ext.negInf
    | (e : ℚ) => Ext.fin (pos i - e)
  let maxCorner : Vec3 := fun i => match halfEdge with
    | ⊤ => Ext.posInf
    | (e : ℚ) => Ext.fin (pos i + e)
  let region ← AxisAlignedBox.makeDefault minCorner maxCorner
  return (KdTree.rangeSearch coordOf region k.rtree).map Prod.snd

/-- `KDTreeStrategy::DoFindRoadPositions`, src/maliput/geometry_base/kd_tree_strategy.cc:68-81. -/
def kdFindRoadPositions (g : Geometry L) (k : KdStrategy L) (pos : Pos) (radius : WithTop ℚ) :
    Except Err (List (RoadPositionResult L)) := do
  let lanes ← closestLanes k pos radius
  return lanes.foldl (fun acc lane =>
    if ((g.toLanePosition lane pos).distance : WithTop ℚ) ≤ radius then acc ++ [g.resultOn pos lane] else acc) []

/-- `std::numeric_limits<double>::min()`, the default tolerance of `nearest_point`,
include/maliput/math/kd_tree.h:278-280. -/
def kMinDouble : ℚ := 1 / 2 ^ 1022

/-- `ClosestLane`, src/maliput/geometry_base/kd_tree_strategy.cc:83-111.  `norm` stands for
`Vector3::norm`, the square root being irrational in general. -/
def closestLane (g : Geometry L) (norm : Pos → ℚ) (k : KdStrategy L) (pos : Pos) :
    Except Err (RoadPositionResult L) := do
  let m ← KdTree.nearestPoint coordOf k.tree pos kMinDouble
  let halfEdge := norm (fun i => pos i - coordOf m i) + 2 * k.step
  let lanes ← closestLanes k pos (halfEdge : ℚ)
  return lanes.foldl (fun cur lane => if isCloser g (g.resultOn pos lane) cur then g.resultOn pos lane else cur)
    (g.resultOn pos m.2)

/-- `KDTreeStrategy::DoToRoadPosition`, src/maliput/geometry_base/kd_tree_strategy.cc:58-66. -/
def kdToRoadPosition (g : Geometry L) (norm : Pos → ℚ) (k : KdStrategy L) (pos : Pos)
    (hint : Option (Option L)) : Except Err (RoadPositionResult L) :=
  match hint with
  | some none => .error .throws
  | some (some l) => .ok (g.resultOn pos l)
  | none => closestLane g norm k pos

end Maliput.Strategy
