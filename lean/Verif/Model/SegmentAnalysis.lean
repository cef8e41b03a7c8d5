import Verif.Model.BranchPoint
import Verif.Model.Graph

set_option autoImplicit false

/-!
Model of src/maliput/utility/segment_analysis.cc.  `Segment*` and `Lane*` are natural numbers (addresses).  An
`std::unordered_set` is the list of its elements in the order of their insertion.
-/
namespace Maliput.SegmentAnalysis

open Maliput.Topo (LaneEnd Which)
open Maliput.RouteGraph (Stop lift)

/-- What the functions read from the road geometry. -/
structure Net where
  /-- `RoadGeometry::junction(i)`, each with `Junction::segment(j)`; the segments are not null -/
  junctions : List (Option (List Nat))
  /-- `Segment::lane(i)` -/
  lanes : Nat → List (Option Nat)
  /-- `Lane::GetConfluentBranches(end)` -/
  confluent : LaneEnd → Except Err (Option (List LaneEnd))
  /-- `Lane::segment()` -/
  segment : Nat → Option Nat

/-- The segments of the road geometry, in the order of the loops, src/maliput/utility/segment_analysis.cc:91-107. -/
def Net.segments (net : Net) : List Nat := net.junctions.flatMap fun j => j.getD []

/-- The loop over a set of confluent lanes, src/maliput/utility/segment_analysis.cc:67-79: the queue and the visited
segments afterwards. -/
def mark (net : Net) : List LaneEnd → List Nat × List Nat → List Nat × List Nat
  | [], s => s
  | le :: rest, s =>
    match net.segment le.lane with
    | none => mark net rest s
    | some x => if x ∈ s.2 then mark net rest s else mark net rest (s.1 ++ [x], s.2 ++ [x])

/-- The loop over the ends of a lane, src/maliput/utility/segment_analysis.cc:61-80. -/
def markEnds (net : Net) (lane : Nat) : List Which → List Nat × List Nat → Except Err (List Nat × List Nat)
  | [], s => .ok s
  | w :: rest, s => do
    let c ← net.confluent ⟨lane, w⟩
    markEnds net lane rest (mark net (c.getD []) s)

/-- The loop over the lanes of a segment, src/maliput/utility/segment_analysis.cc:55-81. -/
def markLanes (net : Net) : List (Option Nat) → List Nat × List Nat → Except Err (List Nat × List Nat)
  | [], s => .ok s
  | none :: rest, s => markLanes net rest s
  | some lane :: rest, s => do
    let s ← markEnds net lane [.start, .finish] s
    markLanes net rest s

/-- The loop over the queue, src/maliput/utility/segment_analysis.cc:50-82.  The number bounds the iterations. -/
def work (net : Net) : Nat → List Nat → List Nat → Except Stop (List Nat)
  | _, [], visited => .ok visited
  | 0, _ :: _, _ => .error .depth
  | n + 1, x :: queue, visited => do
    let s ← lift (markLanes net (net.lanes x) (queue, visited))
    work net n s.1 s.2

/-- `FindConfluentSegments`, src/maliput/utility/segment_analysis.cc:40-86.  The bound of the loop is one more than the
number of segments of the road geometry. -/
def findConfluentSegments (net : Net) (seed : Nat) : Except Stop (List Nat) :=
  work net (net.segments.length + 1) [seed] []

/-- The loops over the segments, src/maliput/utility/segment_analysis.cc:91-107. -/
def components (net : Net) : List Nat → List Nat → Except Stop (List (List Nat))
  | [], _ => .ok []
  | x :: rest, visited =>
    if x ∈ visited then components net rest visited
    else do
      let c ← findConfluentSegments net x
      let cs ← components net rest (visited ++ c)
      return c :: cs

/-- `AnalyzeConfluentSegments`, src/maliput/utility/segment_analysis.cc:88-110. -/
def analyzeConfluentSegments (net : Net) : Except Stop (List (List Nat)) := components net net.segments []

end Maliput.SegmentAnalysis
