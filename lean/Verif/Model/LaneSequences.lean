import Verif.Model.Regions
import Verif.Model.BranchPoint

set_option autoImplicit false

/-!
Model of src/maliput/routing/find_lane_sequences.cc and src/maliput/routing/derive_lane_s_routes.cc.
`Lane*` is a natural number (an address), as in `Verif.Model.BranchPoint`; what the functions read from
the lanes is a `LaneGraph`.
-/
namespace Maliput.Routing
open Maliput.Topo

/-- What the routing functions read from the lanes: `Lane::id`, `Lane::length`,
`Lane::GetOngoingBranches(end)` (include/maliput/api/lane.h:82,127,275).  `lanes` are the lanes of the
road geometry. -/
structure LaneGraph where
  lanes : List Nat
  id : Nat → String
  length : Nat → ℚ
  ongoing : LaneEnd → List LaneEnd

/-- `lanes_to_check`, src/maliput/routing/find_lane_sequences.cc:46-52, 62-64. -/
def lanesToCheck (g : LaneGraph) (start : Nat) : List Nat :=
  (g.ongoing ⟨start, .start⟩).map LaneEnd.lane ++ (g.ongoing ⟨start, .finish⟩).map LaneEnd.lane

/-- `FindLaneSequencesHelper`, src/maliput/routing/find_lane_sequences.cc:54-84.  The first argument
bounds the depth of the recursion: `none` means that the recursion is deeper. -/
def findLaneSequencesHelper (g : LaneGraph) (end_ : Nat) (maxLength : ℚ) :
    Nat → Nat → List Nat → ℚ → Option (List (List Nat))
  | 0, _, _, _ => none
  | n + 1, start, visited, currentLength =>
    if currentLength > maxLength then some []
    else
      (lanesToCheck g start).foldlM (fun result next =>
        if next ∈ visited then some result
        else if g.id next = g.id end_ then some (result ++ [[start, end_]])
        else do
          let subsequences ← findLaneSequencesHelper g end_ maxLength n next (visited ++ [next])
            (currentLength + g.length next)
          some (result ++ subsequences.map (start :: ·))) []

/-- `FindLaneSequences(start, end, max_length_m)`, src/maliput/routing/find_lane_sequences.cc:165-171. -/
def findLaneSequences (g : LaneGraph) (depth : Nat) (start end_ : Nat) (maxLength : ℚ) :
    Option (List (List Nat)) :=
  if g.id start = g.id end_ then some [[start]]
  else findLaneSequencesHelper g end_ maxLength depth start [start] 0

/-- `struct ConnectionSet`, src/maliput/routing/find_lane_sequences.cc:88-91. -/
structure ConnectionSet where
  incoming : LaneEnd
  ongoing : LaneEnd
  deriving DecidableEq, Repr

/-- `BuildConnectionSet`, src/maliput/routing/find_lane_sequences.cc:106-127. -/
def buildConnectionSet (g : LaneGraph) (incoming ongoing : Nat) : Except Err ConnectionSet :=
  match (g.ongoing ⟨incoming, .start⟩).find? (fun le => le.lane == ongoing) with
  | some le => .ok ⟨⟨incoming, .start⟩, le⟩
  | none =>
    match (g.ongoing ⟨incoming, .finish⟩).find? (fun le => le.lane == ongoing) with
    | some le => .ok ⟨⟨incoming, .finish⟩, le⟩
    | none => .error .throws

/-- The loop of `HasUTurn`, src/maliput/routing/find_lane_sequences.cc:142-151. -/
def hasUTurnLoop (g : LaneGraph) : ConnectionSet → Nat → List Nat → Except Err Bool
  | _, _, [] => .ok false
  | cs, lane, next :: rest => do
    let nextCs ← buildConnectionSet g lane next
    if nextCs.ongoing.which = cs.incoming.which then return true
    else hasUTurnLoop g nextCs next rest

/-- `HasUTurn`, src/maliput/routing/find_lane_sequences.cc:133-153. -/
def hasUTurn (g : LaneGraph) : List Nat → Except Err Bool
  | [] => .error .throws
  | [_] => .ok false
  | [_, _] => .ok false
  | a :: b :: rest => do
    let cs ← buildConnectionSet g a b
    hasUTurnLoop g cs b rest

/-- `RemoveUTurns`, src/maliput/routing/find_lane_sequences.cc:157-161. -/
def removeUTurns (g : LaneGraph) (sequences : List (List Nat)) : Except Err (List (List Nat)) :=
  sequences.foldlM (fun result s => do
    if ← hasUTurn g s then return result else return result ++ [s]) []

/-- `FindLaneSequences(start, end, max_length_m, no_u_turns)`,
src/maliput/routing/find_lane_sequences.cc:174-179. -/
def findLaneSequencesUTurn (g : LaneGraph) (depth : Nat) (start end_ : Nat) (maxLength : ℚ)
    (noUTurns : Bool) : Option (Except Err (List (List Nat))) :=
  (findLaneSequences g depth start end_ maxLength).map fun unfiltered =>
    if noUTurns then removeUTurns g unfiltered else .ok unfiltered

/-- `LaneExistsInSet`, src/maliput/routing/derive_lane_s_routes.cc:45-53. -/
def laneExistsInSet (set : List LaneEnd) (lane : Nat) : Bool := set.any (fun le => le.lane == lane)

/-- `DetermineEdgeS`, src/maliput/routing/derive_lane_s_routes.cc:57-65. -/
def determineEdgeS (g : LaneGraph) (lane next : Nat) : Option ℚ :=
  if laneExistsInSet (g.ongoing ⟨lane, .finish⟩) next then some (g.length lane)
  else if laneExistsInSet (g.ongoing ⟨lane, .start⟩) next then some 0
  else none

/-- `MALIPUT_THROW_UNLESS(x.has_value())` followed by `x.value()`. -/
def valueOrThrow {α : Type} : Option α → Except Err α
  | some a => .ok a
  | none => .error .throws

/-- The second and third branch of the loop of `DeriveLaneSRoutes`,
src/maliput/routing/derive_lane_s_routes.cc:99-110, from the lane after `prev` on. -/
def deriveRangesLoop (g : LaneGraph) (endLane : Nat) (endS : ℚ) : Nat → List Nat → Except Err (List LaneSRange)
  | _, [] => .ok []
  | prev, [lane] => do
    throwUnless (g.id lane == g.id endLane)
    let s0 ← valueOrThrow (determineEdgeS g lane prev)
    let r ← SRange.make s0 endS
    return [⟨g.id lane, r⟩]
  | prev, lane :: next :: rest => do
    let s0 ← valueOrThrow (determineEdgeS g lane prev)
    let s1 ← valueOrThrow (determineEdgeS g lane next)
    let r ← SRange.make s0 s1
    let rs ← deriveRangesLoop g endLane endS lane (next :: rest)
    return ⟨g.id lane, r⟩ :: rs

/-- The body of the outer loop of `DeriveLaneSRoutes`,
src/maliput/routing/derive_lane_s_routes.cc:77-112. -/
def deriveRanges (g : LaneGraph) (startLane : Nat) (startS : ℚ) (endLane : Nat) (endS : ℚ) :
    List Nat → Except Err LaneSRoute
  | [] => .error .throws
  | [_] => do
    throwUnless (startLane == endLane)
    let r ← SRange.make startS endS
    return ⟨[⟨g.id startLane, r⟩]⟩
  | lane :: next :: rest => do
    throwUnless (g.id lane == g.id startLane)
    let s1 ← valueOrThrow (determineEdgeS g lane next)
    let r ← SRange.make startS s1
    let rs ← deriveRangesLoop g endLane endS lane (next :: rest)
    return ⟨⟨g.id lane, r⟩ :: rs⟩

/-- `DeriveLaneSRoutes`, src/maliput/routing/derive_lane_s_routes.cc:67-116, for non-null lanes. -/
def deriveLaneSRoutes (g : LaneGraph) (depth : Nat) (startLane : Nat) (startS : ℚ) (endLane : Nat)
    (endS : ℚ) (maxLength : ℚ) : Option (Except Err (List LaneSRoute)) :=
  (findLaneSequences g depth startLane endLane maxLength).map fun sequences =>
    sequences.foldlM (fun result s => do
      let r ← deriveRanges g startLane startS endLane endS s
      return result ++ [r]) []

end Maliput.Routing
