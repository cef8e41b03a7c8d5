import Verif.Model.Strategy
import Verif.Model.Double

set_option autoImplicit false

/-!
Model of the default position functions of a lane, src/maliput/geometry_base/lane.cc:115-164: they translate between the Inertial
Frame and the frame of the backend.  What the backend computes is an arbitrary parameter, possibly not given.  The numbers are a
parameter too, so that the functions can be read over the rationals and over `double`.
-/
namespace Maliput.Frame
open Maliput

/-- The operations of the numbers. -/
structure Arith (N : Type) where
  zero : N
  add : N → N → N
  sub : N → N → N

/-- The rationals. -/
def rationals : Arith ℚ := ⟨0, (· + ·), (· - ·)⟩

/-- Binary64. -/
def doubles : Arith Dbl.Double := ⟨.fin 0, Dbl.add, Dbl.sub⟩

/-- `math::Vector3`, and the three coordinates of `LanePosition` and `InertialPosition`. -/
abbrev Vec (N : Type) := Fin 3 → N

/-- The operator `+` of vectors, include/maliput/math/vector.h. -/
def Arith.vadd {N : Type} (a : Arith N) (u v : Vec N) : Vec N := fun i => a.add (u i) (v i)

/-- The operator `-` of vectors, include/maliput/math/vector.h. -/
def Arith.vsub {N : Type} (a : Arith N) (u v : Vec N) : Vec N := fun i => a.sub (u i) (v i)

/-- `LanePositionResult`, include/maliput/api/lane_data.h; also what the three output arguments of
`DoToLanePositionBackend` point to. -/
structure PositionResult (N : Type) where
  lanePosition : Vec N
  nearestPosition : Vec N
  distance : N
  deriving DecidableEq

/-- What a lane has: the translation of its road geometry, and the functions its class overrides.  The two last get the initial
contents of their output arguments. -/
structure Lane (N : Type) where
  /-- `segment()->junction()->road_geometry()->inertial_to_backend_frame_translation()` -/
  translation : Vec N
  /-- the override of `DoToBackendPosition` -/
  backendPosition : Option (Vec N → Except Err (Vec N))
  /-- the override of `DoToLanePositionBackend` -/
  lanePositionBackend : Option (Vec N → PositionResult N → Except Err (PositionResult N))
  /-- the override of `DoToSegmentPositionBackend` -/
  segmentPositionBackend : Option (Vec N → PositionResult N → Except Err (PositionResult N))

variable {N : Type}

/-- `DoToBackendPosition`, src/maliput/geometry_base/lane.cc:121-125, or its override. -/
def Lane.doToBackendPosition (l : Lane N) (p : Vec N) : Except Err (Vec N) :=
  match l.backendPosition with
  | some f => f p
  | none => .error .throws

/-- `DoToLanePositionBackend`, src/maliput/geometry_base/lane.cc:139-144, or its override. -/
def Lane.doToLanePositionBackend (l : Lane N) (x : Vec N) (out : PositionResult N) : Except Err (PositionResult N) :=
  match l.lanePositionBackend with
  | some f => f x out
  | none => .error .throws

/-- `DoToSegmentPositionBackend`, src/maliput/geometry_base/lane.cc:146-151, or its override. -/
def Lane.doToSegmentPositionBackend (l : Lane N) (x : Vec N) (out : PositionResult N) : Except Err (PositionResult N) :=
  match l.segmentPositionBackend with
  | some f => f x out
  | none => .error .throws

/-- `DoToInertialPosition`, src/maliput/geometry_base/lane.cc:115-119. -/
def Lane.toInertialPosition (a : Arith N) (l : Lane N) (p : Vec N) : Except Err (Vec N) := do
  let backendPos ← l.doToBackendPosition p
  return a.vadd backendPos l.translation

/-- `UseInertialToBackendTranslationFor`, src/maliput/geometry_base/lane.cc:153-167. -/
def useTranslation (a : Arith N) (l : Lane N) (x : Vec N)
    (inertialToLane : Vec N → PositionResult N → Except Err (PositionResult N)) : Except Err (PositionResult N) := do
  let backendPos := a.vsub x l.translation
  let out ← inertialToLane backendPos ⟨fun _ => a.zero, fun _ => a.zero, a.zero⟩
  return ⟨out.lanePosition, a.vadd out.nearestPosition l.translation, out.distance⟩

/-- `DoToLanePosition`, src/maliput/geometry_base/lane.cc:127-131. -/
def Lane.toLanePosition (a : Arith N) (l : Lane N) (x : Vec N) : Except Err (PositionResult N) :=
  useTranslation a l x l.doToLanePositionBackend

/-- `DoToSegmentPosition`, src/maliput/geometry_base/lane.cc:133-137. -/
def Lane.toSegmentPosition (a : Arith N) (l : Lane N) (x : Vec N) : Except Err (PositionResult N) :=
  useTranslation a l x l.doToSegmentPositionBackend

/-- The lane `l` of a road geometry with this translation, whose backend answers what `b` says in the frame of the backend. -/
def laneOf {L : Type} (translation : Strategy.Pos) (b : Strategy.Geometry L) (l : L) : Lane ℚ where
  translation := translation
  backendPosition := some fun p => .ok (b.toInertialPosition l (p 0) (p 1))
  lanePositionBackend := some fun x _ =>
    let r := b.toLanePosition l x
    .ok ⟨![r.s, r.r, r.h], r.nearest, r.distance⟩
  segmentPositionBackend := none

/-- The road geometry of those lanes, as the position queries of `RoadGeometry` see it. -/
def geometryOf {L : Type} (translation : Strategy.Pos) (b : Strategy.Geometry L) : Strategy.Geometry L :=
  { b with
    toLanePosition := fun l x =>
      match (laneOf translation b l).toLanePosition rationals x with
      | .ok r => ⟨r.lanePosition 0, r.lanePosition 1, r.lanePosition 2, r.nearestPosition, r.distance⟩
      | .error _ => b.toLanePosition l x
    toInertialPosition := fun l s r =>
      match (laneOf translation b l).toInertialPosition rationals ![s, r, 0] with
      | .ok x => x
      | .error _ => b.toInertialPosition l s r }

end Maliput.Frame
