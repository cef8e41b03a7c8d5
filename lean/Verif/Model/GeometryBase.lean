import Mathlib.Logic.Function.Basic
import Verif.Model.Basic

set_option autoImplicit false

/-!
Model of the construction of a road geometry: src/maliput/geometry_base/{segment,junction,
road_geometry}.cc, the segment part of src/maliput/geometry_base/lane.cc and
src/maliput/api/basic_id_index.cc.  Objects live in a heap and are named by natural numbers (their
addresses); `held` says that the user still owns the `unique_ptr` (only then can the object be passed
to an `Add` function).  There is one road geometry.  A call that throws returns the state it leaves.
-/
namespace Maliput.Build

/-- The members `id_`, `segment_`, `index_` of `Lane`, include/maliput/geometry_base/lane.h:230-232. -/
structure LaneObj where
  id : String
  segment : Option Nat
  index : Int
  deriving DecidableEq, Repr

/-- The members of `Segment`, include/maliput/geometry_base/segment.h:123-126; `callback` says that
`lane_indexing_callback_` is set (it can only be the callback of the road geometry). -/
structure SegmentObj where
  id : String
  held : Bool
  junction : Option Nat
  callback : Bool
  lanes : List Nat
  deriving DecidableEq, Repr

/-- The members of `Junction`, include/maliput/geometry_base/junction.h:114-118; `attached` says that
`road_geometry_` and the two callbacks are set (they are set together). -/
structure JunctionObj where
  id : String
  held : Bool
  attached : Bool
  segments : List Nat
  deriving DecidableEq, Repr

/-- The heap, the members `junctions_`, `branch_points_` of the road geometry
(include/maliput/geometry_base/road_geometry.h:207-208) and the four maps of its `id_index_`
(include/maliput/api/basic_id_index.h:93-96). -/
structure World where
  nLanes : Nat
  nSegments : Nat
  nJunctions : Nat
  nBranchPoints : Nat
  lane : Nat → LaneObj
  segment : Nat → SegmentObj
  junction : Nat → JunctionObj
  branchPointId : Nat → String
  junctions : List Nat
  branchPoints : List Nat
  laneMap : String → Option Nat
  segmentMap : String → Option Nat
  junctionMap : String → Option Nat
  branchPointMap : String → Option Nat

/-- An empty road geometry and an empty heap. -/
def World.init : World where
  nLanes := 0
  nSegments := 0
  nJunctions := 0
  nBranchPoints := 0
  lane := fun _ => ⟨"", none, -1⟩
  segment := fun _ => ⟨"", false, none, false, []⟩
  junction := fun _ => ⟨"", false, false, []⟩
  branchPointId := fun _ => ""
  junctions := []
  branchPoints := []
  laneMap := fun _ => none
  segmentMap := fun _ => none
  junctionMap := fun _ => none
  branchPointMap := fun _ => none

/-- State after the call, and how it ended. -/
abbrev Result := World × Except Err Unit

/-- `a; b`: `b` only runs if `a` does not throw. -/
def Result.andThen (r : Result) (f : World → Result) : Result :=
  match r with
  | (w, .ok ()) => f w
  | (w, .error e) => (w, .error e)

/-- `BasicIdIndex::AddLane`, src/maliput/api/basic_id_index.cc:37. -/
def indexLane (w : World) (l : Nat) : Result :=
  match w.laneMap (w.lane l).id with
  | none => ({ w with laneMap := Function.update w.laneMap (w.lane l).id (some l) }, .ok ())
  | some _ => (w, .error .throws)

/-- `BasicIdIndex::AddSegment`, src/maliput/api/basic_id_index.cc:39-41. -/
def indexSegment (w : World) (s : Nat) : Result :=
  match w.segmentMap (w.segment s).id with
  | none => ({ w with segmentMap := Function.update w.segmentMap (w.segment s).id (some s) }, .ok ())
  | some _ => (w, .error .throws)

/-- `BasicIdIndex::AddJunction`, src/maliput/api/basic_id_index.cc:43-45. -/
def indexJunction (w : World) (j : Nat) : Result :=
  match w.junctionMap (w.junction j).id with
  | none => ({ w with junctionMap := Function.update w.junctionMap (w.junction j).id (some j) }, .ok ())
  | some _ => (w, .error .throws)

/-- `BasicIdIndex::AddBranchPoint`, src/maliput/api/basic_id_index.cc:47-49. -/
def indexBranchPoint (w : World) (b : Nat) : Result :=
  match w.branchPointMap (w.branchPointId b) with
  | none => ({ w with branchPointMap := Function.update w.branchPointMap (w.branchPointId b) (some b) }, .ok ())
  | some _ => (w, .error .throws)

/-- A range-based `for` loop. -/
def forEach (f : World → Nat → Result) : List Nat → World → Result
  | [], w => (w, .ok ())
  | x :: xs, w => (f w x).andThen (forEach f xs)

/-- `Lane::AttachToSegment`, src/maliput/geometry_base/lane.cc:39-49. -/
def attachToSegment (w : World) (l s : Nat) (index : Int) : Result :=
  if index < 0 then (w, .error .throws)
  else if (w.lane l).segment.isSome then (w, .error .throws)
  else if (w.lane l).index ≠ -1 then (w, .error .throws)
  else ({ w with lane := Function.update w.lane l { w.lane l with segment := some s, index := index } }, .ok ())

/-- `Segment::SetLaneIndexingCallback`, src/maliput/geometry_base/segment.cc:46-58. -/
def setLaneIndexingCallback (w : World) (s : Nat) : Result :=
  if (w.segment s).callback then (w, .error .throws)
  else forEach indexLane (w.segment s).lanes
    { w with segment := Function.update w.segment s { w.segment s with callback := true } }

/-- `Segment::AddLane` of a newly constructed lane: include/maliput/geometry_base/segment.h:83-88,
src/maliput/geometry_base/segment.cc:60-70, constructor include/maliput/geometry_base/lane.h:60. -/
def addLane (w : World) (s : Nat) (id : String) : Result :=
  let l := w.nLanes
  let w := { w with nLanes := w.nLanes + 1, lane := Function.update w.lane l ⟨id, none, -1⟩ }
  let w := { w with segment := Function.update w.segment s
                      { w.segment s with lanes := (w.segment s).lanes ++ [l] } }
  (attachToSegment w l s (((w.segment s).lanes.length : Int) - 1)).andThen fun w =>
    if (w.segment s).callback then indexLane w l else (w, .ok ())

/-- `Segment::AttachToJunction`, src/maliput/geometry_base/segment.cc:37-44. -/
def attachToJunction (w : World) (s j : Nat) : Result :=
  if (w.segment s).junction.isSome then (w, .error .throws)
  else ({ w with segment := Function.update w.segment s { w.segment s with junction := some j } }, .ok ())

/-- `Junction::AddSegment`, include/maliput/geometry_base/junction.h:73-79 and
src/maliput/geometry_base/junction.cc:61-74. -/
def addSegment (w : World) (j s : Nat) : Result :=
  let w := { w with segment := Function.update w.segment s { w.segment s with held := false },
                    junction := Function.update w.junction j
                      { w.junction j with segments := (w.junction j).segments ++ [s] } }
  (attachToJunction w s j).andThen fun w =>
    (if (w.junction j).attached then indexSegment w s else (w, .ok ())).andThen fun w =>
      if (w.junction j).attached then setLaneIndexingCallback w s else (w, .ok ())

/-- `Junction::AttachToRoadGeometry`, src/maliput/geometry_base/junction.cc:37-59. -/
def attachToRoadGeometry (w : World) (j : Nat) : Result :=
  if (w.junction j).attached then (w, .error .throws)
  else
    forEach (fun w s => (indexSegment w s).andThen fun w => setLaneIndexingCallback w s) (w.junction j).segments
      { w with junction := Function.update w.junction j { w.junction j with attached := true } }

/-- `RoadGeometry::AddJunction`, include/maliput/geometry_base/road_geometry.h:131-137 and
src/maliput/geometry_base/road_geometry.cc:41-51. -/
def addJunction (w : World) (j : Nat) : Result :=
  let w := { w with junction := Function.update w.junction j { w.junction j with held := false },
                    junctions := w.junctions ++ [j] }
  (attachToRoadGeometry w j).andThen fun w => indexJunction w j

/-- `RoadGeometry::AddBranchPoint` of a newly constructed branch point:
include/maliput/geometry_base/road_geometry.h:149-155, src/maliput/geometry_base/road_geometry.cc:53-60.
`BranchPoint::AttachToRoadGeometry` cannot throw on a new object. -/
def addBranchPoint (w : World) (id : String) : Result :=
  let b := w.nBranchPoints
  indexBranchPoint { w with nBranchPoints := b + 1, branchPointId := Function.update w.branchPointId b id,
                            branchPoints := w.branchPoints ++ [b] } b

/-- The calls a user can make. -/
inductive Op
  /-- `std::make_unique<Segment>(id)` -/
  | newSegment (id : String)
  /-- `std::make_unique<Junction>(id)` -/
  | newJunction (id : String)
  | addLane (s : Nat) (id : String)
  | addSegment (j s : Nat)
  | addJunction (j : Nat)
  | addBranchPoint (id : String)
  deriving DecidableEq, Repr

/-- Executes a call; `none` if the objects do not exist or the user no longer owns the `unique_ptr` that
is passed. -/
def Op.exec (w : World) : Op → Option Result
  | .newSegment id => some ({ w with nSegments := w.nSegments + 1, segment := Function.update w.segment w.nSegments ⟨id, true, none, false, []⟩ }, .ok ())
  | .newJunction id => some ({ w with nJunctions := w.nJunctions + 1, junction := Function.update w.junction w.nJunctions ⟨id, true, false, []⟩ }, .ok ())
  | .addLane s id => if s < w.nSegments then some (Build.addLane w s id) else none
  | .addSegment j s =>
    if j < w.nJunctions ∧ s < w.nSegments ∧ (w.segment s).held then some (Build.addSegment w j s) else none
  | .addJunction j =>
    if j < w.nJunctions ∧ (w.junction j).held then some (Build.addJunction w j) else none
  | .addBranchPoint id => some (Build.addBranchPoint w id)

/-! ### Queries -/

/-- `Segment::lane(index)`, src/maliput/geometry_base/segment.cc:72. -/
def segmentLane (w : World) (s : Nat) (index : Int) : Except Err Nat :=
  if index < 0 then .error .outOfRange
  else match (w.segment s).lanes[index.toNat]? with
    | some l => .ok l
    | none => .error .outOfRange

/-- `Lane::to_left()`, src/maliput/geometry_base/lane.cc:75-81. -/
def toLeft (w : World) (l : Nat) : Except Err (Option Nat) :=
  match (w.lane l).segment with
  | none => .error .ub
  | some s =>
    if (w.lane l).index = ((w.segment s).lanes.length : Int) - 1 then .ok none
    else (segmentLane w s ((w.lane l).index + 1)).map some

/-- `Lane::to_right()`, src/maliput/geometry_base/lane.cc:83-89. -/
def toRight (w : World) (l : Nat) : Except Err (Option Nat) :=
  if (w.lane l).index = 0 then .ok none
  else match (w.lane l).segment with
    | none => .error .ub
    | some s => (segmentLane w s ((w.lane l).index - 1)).map some

/-- `IdIndex::GetLane`, src/maliput/api/basic_id_index.cc:69-73, 76; `none` is `nullptr`. -/
def getLane (w : World) (id : String) : Option Nat := w.laneMap id
/-- `IdIndex::GetSegment`, src/maliput/api/basic_id_index.cc:80. -/
def getSegment (w : World) (id : String) : Option Nat := w.segmentMap id
/-- `IdIndex::GetJunction`, src/maliput/api/basic_id_index.cc:82. -/
def getJunction (w : World) (id : String) : Option Nat := w.junctionMap id
/-- `IdIndex::GetBranchPoint`, src/maliput/api/basic_id_index.cc:84-86. -/
def getBranchPoint (w : World) (id : String) : Option Nat := w.branchPointMap id

end Maliput.Build
