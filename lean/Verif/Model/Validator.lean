import Verif.Model.BranchPoint
import Verif.Model.Phases
import Verif.Model.Rulebook
import Verif.Model.TrafficLights

set_option autoImplicit false

/-!
Model of src/maliput/api/road_network_validator.cc, of `RoadGeometry::CheckInvariants`
(src/maliput/api/road_geometry.cc:97-211) and of `IsContiguous` (src/maliput/api/regions.cc:49-64).  The
validator sees a road geometry only through its virtual functions; their results, possibly null pointers,
are the fields of `Geometry`.  Objects are named by natural numbers (their addresses).  Positions,
rotations and their distances are parameters.
-/
namespace Maliput.Validator

open Maliput.Topo (Which LaneEnd)

/-- What `road_geometry()` of a junction or branch point points to. -/
inductive Owner where
  | this | other | null
  deriving DecidableEq

/-- The results of the virtual functions of a `Junction`. -/
structure JunctionView where
  id : String
  owner : Owner
  segments : List (Option Nat)

/-- The results of the virtual functions of a `Segment`. -/
structure SegmentView where
  id : String
  junction : Option Nat
  lanes : List (Option Nat)

/-- The results of the virtual functions of a `Lane`; `bpStart`, `bpFinish` are `GetBranchPoint`. -/
structure LaneView where
  id : String
  segment : Option Nat
  index : Int
  length : ℚ
  bpStart : Option Nat
  bpFinish : Option Nat

/-- The results of the virtual functions of a `BranchPoint`. -/
structure BranchPointView where
  id : String
  owner : Owner
  aSide : Option (List LaneEnd)
  bSide : Option (List LaneEnd)

/-- The results of the virtual functions of a `RoadGeometry`; `lanes` is `ById().GetLanes()` and the
functions `...ById` are the other members of `IdIndex`. -/
structure Geometry (Pos Rot : Type) where
  junctions : List (Option Nat)
  branchPoints : List (Option Nat)
  junction : Nat → JunctionView
  segment : Nat → SegmentView
  lane : Nat → LaneView
  branchPoint : Nat → BranchPointView
  lanes : Map String Nat
  laneById : String → Option Nat
  segmentById : String → Option Nat
  junctionById : String → Option Nat
  branchPointById : String → Option Nat
  linearTolerance : ℚ
  angularTolerance : ℚ
  position : Nat → ℚ → Pos
  orientation : Nat → ℚ → Rot
  reverse : Rot → Rot
  posDist : Pos → Pos → ℚ
  rotDist : Rot → Rot → ℚ

variable {Pos Rot : Type}

/-- Dereferencing a pointer. -/
def deref {α : Type} : Option α → Except Err α
  | some a => .ok a
  | none => .error .ub

/-- `LaneEndInertialPosition`, src/maliput/api/road_geometry.cc:52-55. -/
def endPosition (g : Geometry Pos Rot) (e : LaneEnd) : Pos :=
  g.position e.lane (if e.which = .start then 0 else (g.lane e.lane).length)

/-- `OrientationOutFromLane`, src/maliput/api/road_geometry.cc:59-69. -/
def orientationOut (g : Geometry Pos Rot) (e : LaneEnd) : Rot :=
  match e.which with
  | .start => g.reverse (g.orientation e.lane 0)
  | .finish => g.orientation e.lane (g.lane e.lane).length

/-- One of the messages of `CheckInvariants`, src/maliput/api/road_geometry.cc:106-107, 115-117, 124-125,
132-133, 141-142, 162, 176-178, 195-197. -/
inductive Failure where
  | branchPointOwner (b : Nat)
  | junctionOwner (j : Nat)
  | segmentOwner (s : Nat)
  | laneOwner (l : Nat)
  | laneIndex (l : Nat)
  | emptyBranchPoint (b : Nat)
  | position (e : LaneEnd)
  | orientation (e : LaneEnd)
  deriving DecidableEq

/-- The check of a back pointer to the road geometry and its message, which dereferences the pointer,
src/maliput/api/road_geometry.cc:104-109, 113-119. -/
def checkOwner (o : Owner) (f : Failure) : Except Err (List Failure) :=
  match o with
  | .this => .ok []
  | .other => .ok [f]
  | .null => .error .ub

/-- The check of another back pointer and its message, src/maliput/api/road_geometry.cc:122-127, 130-135. -/
def checkBack (o : Option Nat) (x : Nat) (f : Failure) : Except Err (List Failure) :=
  match o with
  | some y => if y ≠ x then .ok [f] else .ok []
  | none => .error .ub

/-- A loop that appends the failures of each element. -/
def collectM {α : Type} (f : α → Except Err (List Failure)) : List α → Except Err (List Failure)
  | [] => .ok []
  | x :: xs => do
    let a ← f x
    let b ← collectM f xs
    return a ++ b

/-- The body of the loop over the lanes, src/maliput/api/road_geometry.cc:129-144. -/
def invariantsLane (g : Geometry Pos Rot) (s : Nat) (li : Nat × Option Nat) : Except Err (List Failure) := do
  let l ← deref li.2
  let a ← checkBack (g.lane l).segment s (.laneOwner l)
  return a ++ (if (g.lane l).index ≠ (li.1 : Int) then [.laneIndex l] else [])

/-- The elements of a list with their indices. -/
def indexed {α : Type} (l : List α) : List (Nat × α) := (List.range l.length).zip l

/-- The body of the loop over the segments, src/maliput/api/road_geometry.cc:121-145. -/
def invariantsSegment (g : Geometry Pos Rot) (j : Nat) (s : Option Nat) : Except Err (List Failure) := do
  let s ← deref s
  let a ← checkBack (g.segment s).junction j (.segmentOwner s)
  let b ← collectM (invariantsLane g s) (indexed (g.segment s).lanes)
  return a ++ b

/-- The body of the loop over the junctions, src/maliput/api/road_geometry.cc:112-146. -/
def invariantsJunction (g : Geometry Pos Rot) (j : Option Nat) : Except Err (List Failure) := do
  let j ← deref j
  let a ← checkOwner (g.junction j).owner (.junctionOwner j)
  let b ← collectM (invariantsSegment g j) (g.junction j).segments
  return a ++ b

/-- The body of the first loop over the branch points, src/maliput/api/road_geometry.cc:103-109. -/
def invariantsOwner (g : Geometry Pos Rot) (b : Option Nat) : Except Err (List Failure) := do
  let b ← deref b
  checkOwner (g.branchPoint b).owner (.branchPointOwner b)

/-- The lambda `test_inertial_position`, src/maliput/api/road_geometry.cc:170-182. -/
def testPosition (g : Geometry Pos Rot) (ref : Pos) (ends : List LaneEnd) : List Failure :=
  (ends.filter fun e => decide (g.posDist ref (endPosition g e) > g.linearTolerance)).map .position

/-- The lambda `test_orientation`, src/maliput/api/road_geometry.cc:189-201. -/
def testOrientation (g : Geometry Pos Rot) (ref : Rot) (ends : List LaneEnd) : List Failure :=
  (ends.filter fun e => decide (g.rotDist ref (orientationOut g e) > g.angularTolerance)).map .orientation

/-- The body of the second loop over the branch points, src/maliput/api/road_geometry.cc:151-203, where `b`
is the branch point and `as`, `bs` are the ends of its two sides. -/
def invariantsEnds (g : Geometry Pos Rot) (b : Nat) (as bs : List LaneEnd) : List Failure :=
  match as, bs with
  | [], [] => [.emptyBranchPoint b]
  | a :: as, bs =>
    testPosition g (endPosition g a) (a :: as) ++ testPosition g (endPosition g a) bs ++
    testOrientation g (orientationOut g a) (a :: as) ++
    testOrientation g (g.reverse (orientationOut g a)) bs
  | [], e :: bs =>
    testPosition g (endPosition g e) (e :: bs) ++
    testOrientation g (g.reverse (g.reverse (orientationOut g e))) (e :: bs)

/-- `invariantsEnds` for a pointer to a branch point. -/
def invariantsBranchPoint (g : Geometry Pos Rot) (b : Option Nat) : Except Err (List Failure) := do
  let b ← deref b
  let as ← deref (g.branchPoint b).aSide
  let bs ← deref (g.branchPoint b).bSide
  return invariantsEnds g b as bs

/-- `RoadGeometry::CheckInvariants`, src/maliput/api/road_geometry.cc:97-211. -/
def checkInvariants (g : Geometry Pos Rot) : Except Err (List Failure) := do
  let a ← collectM (invariantsOwner g) g.branchPoints
  let b ← collectM (invariantsJunction g) g.junctions
  let c ← collectM (invariantsBranchPoint g) g.branchPoints
  return a ++ b ++ c

/-- `IsContiguous`, src/maliput/api/regions.cc:49-64 (`road_geometry` is not null). -/
def isContiguous (g : Geometry Pos Rot) (a b : LaneSRange) : Except Err Bool :=
  match g.laneById a.laneId with
  | none => .error .throws
  | some la =>
    match g.laneById b.laneId with
    | none => .error .throws
    | some lb =>
      .ok (decide (g.posDist (g.position la a.sRange.s1) (g.position lb b.sRange.s0) < g.linearTolerance) &&
        decide (g.rotDist (g.orientation la a.sRange.s1) (g.orientation lb b.sRange.s0) < g.angularTolerance))

/-- The members of a `RoadNetwork` that the validator uses. -/
structure Network (Pos Rot : Type) where
  geometry : Geometry Pos Rot
  rulebook : Rulebook.Book
  lights : TrafficLights.Book
  rings : Phases.Book

/-- `RoadNetworkValidatorOptions`, include/maliput/api/road_network_validator.h:38-77. -/
structure Options where
  directionUsage : Bool
  invariants : Bool
  hierarchy : Bool
  relatedBulbGroups : Bool
  contiguity : Bool
  phaseValues : Bool
  phaseBulbs : Bool
  relatedRules : Bool

/-- `CheckLaneSRouteContiguity`, src/maliput/api/road_network_validator.cc:50-65. -/
def checkRoute (g : Geometry Pos Rot) : List LaneSRange → Except Err Unit
  | a :: b :: rest => do
    let c ← isContiguous g a b
    throwUnless c
    checkRoute g (b :: rest)
  | _ => .ok ()

/-- `CheckContiguityBetweenLanes`, src/maliput/api/road_network_validator.cc:69-79. -/
def checkContiguity (n : Network Pos Rot) : Except Err Unit := do
  (Rulebook.rules n.rulebook).discreteValueRules.entries.forM fun kv => checkRoute n.geometry kv.2.zone
  (Rulebook.rules n.rulebook).rangeValueRules.entries.forM fun kv => checkRoute n.geometry kv.2.zone

/-- `CheckDirectionUsageRuleCoverage`, src/maliput/api/road_network_validator.cc:86-93. -/
def checkDirectionUsage (n : Network Pos Rot) : Except Err Unit :=
  n.geometry.lanes.entries.forM fun kv => do
    let r ← SRange.make 0 (n.geometry.lane kv.2).length
    let q ← Rulebook.findRules n.rulebook [⟨kv.1, r⟩] 0
    throwUnless (decide (q.directionUsage.size > 0))

/-- `ThrowIfThereAreRoadGeometryInvariants`, src/maliput/api/road_network_validator.cc:96-99. -/
def throwIfInvariants (n : Network Pos Rot) : Except Err Unit := do
  let f ← checkInvariants n.geometry
  throwUnless (decide (f.length = 0))

/-- `MALIPUT_THROW_UNLESS(pointer != nullptr)`. -/
def notNull {α : Type} : Option α → Except Err α
  | some a => .ok a
  | none => .error .throws

/-- The body of the loop over the lanes, src/maliput/api/road_network_validator.cc:123-130. -/
def hierarchyLane (g : Geometry Pos Rot) (s : Nat) (l : Option Nat) : Except Err Unit := do
  let l ← notNull l
  throwUnless (decide ((g.lane l).segment = some s))
  throwUnless (decide (g.laneById (g.lane l).id = some l))
  throwUnless (g.lane l).bpStart.isSome
  throwUnless (g.lane l).bpFinish.isSome

/-- The body of the loop over the segments, src/maliput/api/road_network_validator.cc:117-131. -/
def hierarchySegment (g : Geometry Pos Rot) (j : Nat) (s : Option Nat) : Except Err Unit := do
  let s ← notNull s
  throwUnless (decide ((g.segment s).junction = some j))
  throwUnless (decide (g.segmentById (g.segment s).id = some s))
  throwUnless (decide ((g.segment s).lanes.length > 0))
  (g.segment s).lanes.forM (hierarchyLane g s)

/-- The body of the loop over the junctions, src/maliput/api/road_network_validator.cc:111-132. -/
def hierarchyJunction (g : Geometry Pos Rot) (j : Option Nat) : Except Err Unit := do
  let j ← notNull j
  throwUnless (decide ((g.junction j).owner = .this))
  throwUnless (decide (g.junctionById (g.junction j).id = some j))
  throwUnless (decide ((g.junction j).segments.length > 0))
  (g.junction j).segments.forM (hierarchySegment g j)

/-- The body of the loop over the branch points, src/maliput/api/road_network_validator.cc:137-143. -/
def hierarchyBranchPoint (g : Geometry Pos Rot) (b : Option Nat) : Except Err Unit := do
  let b ← notNull b
  throwUnless (decide ((g.branchPoint b).owner = .this))
  throwUnless (decide (g.branchPointById (g.branchPoint b).id = some b))
  let as ← notNull (g.branchPoint b).aSide
  let bs ← notNull (g.branchPoint b).bSide
  throwUnless (decide (as.length ≠ 0) || decide (bs.length ≠ 0))

/-- `CheckRoadGeometryHierarchyConsistency`, src/maliput/api/road_network_validator.cc:104-145 (the road
geometry is not null). -/
def checkHierarchy (n : Network Pos Rot) : Except Err Unit := do
  throwUnless (decide (n.geometry.junctions.length > 0))
  n.geometry.junctions.forM (hierarchyJunction n.geometry)
  throwUnless (decide (n.geometry.branchPoints.length ≥ 2))
  n.geometry.branchPoints.forM (hierarchyBranchPoint n.geometry)

/-- The lambda `evaluate_related_bulb_group_existance`, src/maliput/api/road_network_validator.cc:150-155. -/
def bulbGroupExists (n : Network Pos Rot) (light group : String) : Except Err Unit := do
  let t ← notNull (TrafficLights.Book.getTrafficLight n.lights light)
  throwUnless (t.getBulbGroup group).isSome

/-- `CheckRelatedBulbGroups`, src/maliput/api/road_network_validator.cc:149-165. -/
def checkRelatedBulbGroups (n : Network Pos Rot) : Except Err Unit :=
  (Rulebook.rules n.rulebook).rightOfWay.entries.forM fun kv =>
    kv.2.relatedBulbGroups.entries.forM fun tg => tg.2.forM fun g => bulbGroupExists n tg.1 g

/-- `WalkPhases`, src/maliput/api/road_network_validator.cc:174-185 (the book is not null). -/
def walkPhases (n : Network Pos Rot) (evaluate : Phases.Phase → Except Err Unit) : Except Err Unit :=
  (Phases.getPhaseRings n.rings).forM fun id => do
    let ring ← notNull (Phases.getPhaseRing n.rings id)
    ring.phases.entries.forM fun kv => evaluate kv.2

/-- `CheckPhaseDiscreteValueRuleStates`, src/maliput/api/road_network_validator.cc:190-201. -/
def checkPhaseValues (n : Network Pos Rot) : Except Err Unit :=
  walkPhases n fun phase => phase.discreteStates.entries.forM fun kv => do
    let rule ← Rulebook.getDiscreteValueRule n.rulebook kv.1
    throwUnless (rule.states.any fun v => v.eq kv.2)

/-- The body of the loop of `CheckPhasesBulbStates`, src/maliput/api/road_network_validator.cc:211-234. -/
def checkBulb (n : Network Pos Rot) (kv : TrafficLights.UniqueBulbId × TrafficLights.BulbState) :
    Except Err Unit := do
  let t ← notNull (TrafficLights.Book.getTrafficLight n.lights kv.1.light)
  let g ← notNull (t.getBulbGroup kv.1.group)
  let b ← notNull (g.getBulb kv.1.bulb)
  throwUnless (b.states.contains kv.2)

/-- `CheckPhasesBulbStates`, src/maliput/api/road_network_validator.cc:205-238. -/
def checkPhaseBulbs (n : Network Pos Rot) : Except Err Unit :=
  walkPhases n fun phase =>
    match phase.bulbStates with
    | none => .ok ()
    | some m => m.entries.forM (checkBulb n)

/-- `IsRuleIdIn`, src/maliput/api/road_network_validator.cc:241-246. -/
def isRuleIdIn (q : Rulebook.QueryResults) (id : String) : Bool :=
  q.discreteValueRules.has id || q.rangeValueRules.has id

/-- The loop over the related rules of a state, src/maliput/api/road_network_validator.cc:256-267, 273-282. -/
def checkState (q : Rulebook.QueryResults) (s : Rules.State) : Except Err Unit :=
  s.relatedRules.entries.forM fun kv => kv.2.forM fun id => throwUnless (isRuleIdIn q id)

/-- `CheckRelatedRues`, src/maliput/api/road_network_validator.cc:251-285. -/
def checkRelatedRules (n : Network Pos Rot) : Except Err Unit := do
  (Rulebook.rules n.rulebook).discreteValueRules.entries.forM fun kv =>
    kv.2.states.forM fun v => checkState (Rulebook.rules n.rulebook) v.toState
  (Rulebook.rules n.rulebook).rangeValueRules.entries.forM fun kv =>
    kv.2.states.forM fun v => checkState (Rulebook.rules n.rulebook) v.toState

/-- `if (option) { check }`. -/
def check (c : Bool) (x : Except Err Unit) : Except Err Unit := if c then x else .ok ()

/-- `ValidateRoadNetwork`, src/maliput/api/road_network_validator.cc:289-314. -/
def validate (n : Network Pos Rot) (o : Options) : Except Err Unit := do
  check o.directionUsage (checkDirectionUsage n)
  check o.invariants (throwIfInvariants n)
  check o.hierarchy (checkHierarchy n)
  check o.relatedBulbGroups (checkRelatedBulbGroups n)
  check o.contiguity (checkContiguity n)
  check o.phaseValues (checkPhaseValues n)
  check o.phaseBulbs (checkPhaseBulbs n)
  check o.relatedRules (checkRelatedRules n)

end Maliput.Validator
