import Mathlib.Logic.Function.Basic
import Verif.Model.Basic

set_option autoImplicit false

/-!
Model of src/maliput/geometry_base/branch_point.cc, include/maliput/geometry_base/branch_point.h,
include/maliput/geometry_base/lane_end_set.h and the branch point part of
src/maliput/geometry_base/lane.cc.  `Lane*` and `BranchPoint*` are natural numbers (addresses); a
null pointer is `none`.  Calls that change the topology return the new topology also when they throw.
-/
namespace Maliput.Topo

/-- `api::LaneEnd::Which`, include/maliput/api/lane_data.h:52-55. -/
inductive Which
  | start | finish
  deriving DecidableEq, Repr

/-- `api::LaneEnd`, include/maliput/api/lane_data.h:49-73.  `StrictOrder` compares lane pointer and
end, so two keys are equivalent in the maps iff they are equal. -/
structure LaneEnd where
  lane : Nat
  which : Which
  deriving DecidableEq, Repr

/-- Which of the members `a_side_`, `b_side_` a `LaneEndSet*` points to. -/
inductive Side
  | a | b
  deriving DecidableEq, Repr

/-- `(side == &a_side_) ? &b_side_ : &a_side_`, src/maliput/geometry_base/branch_point.cc:57. -/
def Side.other : Side → Side
  | .a => .b
  | .b => .a

/-- `class BranchPoint`, include/maliput/geometry_base/branch_point.h:111-116.  A `LaneEndSet` is the
list of its ends; the maps point to one of the two sides. -/
structure BranchPoint where
  aSide : List LaneEnd
  bSide : List LaneEnd
  confluent : LaneEnd → Option Side
  ongoing : LaneEnd → Option Side
  defaults : LaneEnd → Option LaneEnd

/-- A newly constructed `BranchPoint`, src/maliput/geometry_base/branch_point.cc:38. -/
def BranchPoint.empty : BranchPoint := ⟨[], [], fun _ => none, fun _ => none, fun _ => none⟩

/-- Dereferences a `LaneEndSet*`. -/
def BranchPoint.side (p : BranchPoint) : Side → List LaneEnd
  | .a => p.aSide
  | .b => p.bSide

/-- `LaneEndSet::Add` on one side, include/maliput/geometry_base/lane_end_set.h:52-56. -/
def BranchPoint.add (p : BranchPoint) (s : Side) (le : LaneEnd) : BranchPoint :=
  match s with
  | .a => { p with aSide := p.aSide ++ [le] }
  | .b => { p with bSide := p.bSide ++ [le] }

/-- All branch points, and the members `start_branch_point_`, `finish_branch_point_` of all lanes
(include/maliput/geometry_base/lane.h:233-234). -/
structure Topology where
  bps : Nat → BranchPoint
  attached : LaneEnd → Option Nat

/-- No branch has been added yet. -/
def Topology.init : Topology := ⟨fun _ => .empty, fun _ => none⟩

/-- `Lane::SetStartBranchPoint`, `Lane::SetFinishBranchPoint`,
src/maliput/geometry_base/lane.cc:51-67. -/
def setBranchPoint (t : Topology) (le : LaneEnd) (bp : Nat) : Topology × Except Err Unit :=
  match t.attached le with
  | none => ({ t with attached := Function.update t.attached le (some bp) }, .ok ())
  | some _ => (t, .error .throws)

/-- `BranchPoint::AddBranch`, src/maliput/geometry_base/branch_point.cc:48-71 (called by `AddABranch`
and `AddBBranch`, include/maliput/geometry_base/branch_point.h:67-72). -/
def addBranch (t : Topology) (bp : Nat) (side : Side) (lane : Option Nat) (end_ : Which) :
    Topology × Except Err Unit :=
  match lane with
  | none => (t, .error .throws)
  | some lane =>
    let le : LaneEnd := ⟨lane, end_⟩
    let p := t.bps bp
    if (p.confluent le).isSome then (t, .error .throws)
    else if (p.ongoing le).isSome then (t, .error .throws)
    else
      let p := p.add side le
      let p := { p with confluent := Function.update p.confluent le (some side),
                        ongoing := Function.update p.ongoing le (some side.other) }
      setBranchPoint { t with bps := Function.update t.bps bp p } le bp

/-- `BranchPoint::SetDefault`, src/maliput/geometry_base/branch_point.cc:73-85. -/
def setDefault (t : Topology) (bp : Nat) (le d : LaneEnd) : Topology × Except Err Unit :=
  let p := t.bps bp
  match p.ongoing le, p.confluent d with
  | some o, some c =>
    if c = o then
      ({ t with bps := Function.update t.bps bp { p with defaults := Function.update p.defaults le (some d) } }, .ok ())
    else (t, .error .throws)
  | _, _ => (t, .error .throws)

/-- `Lane::GetBranchPoint(which_end)`, src/maliput/geometry_base/lane.cc:91-101. -/
def getBranchPoint (t : Topology) (le : LaneEnd) : Option Nat := t.attached le

/-- `Lane::GetConfluentBranches`, src/maliput/geometry_base/lane.cc:103-105 and
src/maliput/geometry_base/branch_point.cc:91-93. -/
def getConfluent (t : Topology) (le : LaneEnd) : Except Err (List LaneEnd) :=
  match t.attached le with
  | none => .error .ub
  | some bp =>
    match (t.bps bp).confluent le with
    | none => .error .outOfRange
    | some s => .ok ((t.bps bp).side s)

/-- `Lane::GetOngoingBranches`, src/maliput/geometry_base/lane.cc:107-109 and
src/maliput/geometry_base/branch_point.cc:95-97. -/
def getOngoing (t : Topology) (le : LaneEnd) : Except Err (List LaneEnd) :=
  match t.attached le with
  | none => .error .ub
  | some bp =>
    match (t.bps bp).ongoing le with
    | none => .error .outOfRange
    | some s => .ok ((t.bps bp).side s)

/-- `Lane::GetDefaultBranch`, src/maliput/geometry_base/lane.cc:111-113 and
src/maliput/geometry_base/branch_point.cc:99-105. -/
def getDefault (t : Topology) (le : LaneEnd) : Except Err (Option LaneEnd) :=
  match t.attached le with
  | none => .error .ub
  | some bp => .ok ((t.bps bp).defaults le)

/-- The public calls that change the topology. -/
inductive Op
  | addBranch (bp : Nat) (side : Side) (lane : Option Nat) (which : Which)
  | setDefault (bp : Nat) (le d : LaneEnd)
  deriving DecidableEq, Repr

/-- Executes a call. -/
def Op.exec (t : Topology) : Op → Topology × Except Err Unit
  | .addBranch bp side lane which => Topo.addBranch t bp side lane which
  | .setDefault bp le d => Topo.setDefault t bp le d

/-- Executes a history of calls, going on after calls that throw. -/
def run (t : Topology) (ops : List Op) : Topology := ops.foldl (fun t o => (o.exec t).1) t

end Maliput.Topo
