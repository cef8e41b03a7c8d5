import Mathlib.Data.List.Defs
import Verif.Model.BranchPoint

set_option autoImplicit false

/-!
Model of src/maliput/routing/graph/graph.cc and src/maliput/routing/graph/graph_utils.cc.
`Segment*`, `Lane*` and `BranchPoint*` are natural numbers (addresses); the elements of a
`std::set` of pointers are ordered by address.
-/
namespace Maliput.RouteGraph
open Maliput.Topo

/-- What the functions read from a road geometry. -/
structure Net where
  /-- `junction(i)->segment(j)`, in this order -/
  segments : List Nat
  /-- `Segment::id().string()` -/
  segId : Nat → String
  /-- `Segment::lane(i)` -/
  segLanes : Nat → List Nat
  /-- `Lane::segment()` -/
  laneSeg : Nat → Nat
  /-- `Lane::GetBranchPoint(end)` -/
  bp : LaneEnd → Nat
  /-- `BranchPoint::GetASide()` -/
  aSide : Nat → List LaneEnd

/-- `struct Edge`, include/maliput/routing/graph/graph.h:53-62.  Node ids are `std::to_string` of a counter;
the model uses the number. -/
structure Edge where
  id : String
  segment : Nat
  nodeA : Nat
  nodeB : Nat
  deriving DecidableEq, Repr

/-- `struct Node`, include/maliput/routing/graph/graph.h:67-74.  The sets are lists without duplicates; the
order of `edges` is the order of insertion instead of the order of the ids (it only affects the order of
the results). -/
structure Node where
  id : Nat
  branchPoints : List Nat
  edges : List String
  deriving DecidableEq, Repr

/-- `struct Graph`, include/maliput/routing/graph/graph.h:77-82: the values of the maps (keyed by their
ids), in some order. -/
structure Graph where
  edges : List Edge
  nodes : List Node
  deriving DecidableEq, Repr

/-- `graph.edges.at(id)`. -/
def Graph.edgeAt (g : Graph) (id : String) : Except Err Edge :=
  match g.edges.find? (fun e => e.id == id) with
  | some e => .ok e
  | none => .error .outOfRange

/-- `graph.nodes.at(id)`. -/
def Graph.nodeAt (g : Graph) (id : Nat) : Except Err Node :=
  match g.nodes.find? (fun n => n.id == id) with
  | some n => .ok n
  | none => .error .outOfRange

/-- `std::set::insert`. -/
def setInsert {α : Type} [DecidableEq α] (xs : List α) (x : α) : List α := if x ∈ xs then xs else xs ++ [x]

/-- `GetBranchPoints`, src/maliput/routing/graph/graph.cc:47-56. -/
def getBranchPoints (net : Net) (segment : Nat) (w : Which) : Except Err (List Nat) := do
  let bps := (net.segLanes segment).foldl (fun acc l => setInsert acc (net.bp ⟨l, w⟩)) []
  throwUnless (decide (bps.length = (net.segLanes segment).length))
  return bps

/-- `FindNode(graph, branch_points)`, src/maliput/routing/graph/graph.cc:63-72. -/
def findNodeByBranchPoints (g : Graph) (bps : List Nat) : Option Node :=
  g.nodes.find? (fun n => bps.any (fun b => decide (b ∈ n.branchPoints)))

/-- `GetNode`, src/maliput/routing/graph/graph.cc:84-95; also returns the counter of the id generator.
The copy `node` with the merged branch points is not what is returned. -/
def getNode (g : Graph) (bps : List Nat) (counter : Nat) : Node × Nat :=
  match findNodeByBranchPoints g bps with
  | some n => (n, counter)
  | none => (⟨counter, bps, []⟩, counter + 1)

/-- `graph.edges.insert_or_assign(edge.id, edge)`. -/
def assignEdge (es : List Edge) (e : Edge) : List Edge :=
  if es.any (fun x => x.id == e.id) then es.map (fun x => if x.id = e.id then e else x) else es ++ [e]

/-- `graph.nodes.insert_or_assign(node.id, node)`. -/
def assignNode (ns : List Node) (n : Node) : List Node :=
  if ns.any (fun x => x.id == n.id) then ns.map (fun x => if x.id = n.id then n else x) else ns ++ [n]

/-- The loop body of `BuildGraph`, src/maliput/routing/graph/graph.cc:108-125. -/
def addSegment (net : Net) (st : Graph × Nat) (segment : Nat) : Except Err (Graph × Nat) := do
  let startBps ← getBranchPoints net segment .start
  let endBps ← getBranchPoints net segment .finish
  let (startNode, c) := getNode st.1 startBps st.2
  let (endNode, c) := getNode st.1 endBps c
  let edge : Edge := ⟨net.segId segment, segment, startNode.id, endNode.id⟩
  let startNode := { startNode with edges := setInsert startNode.edges edge.id }
  let endNode := { endNode with edges := setInsert endNode.edges edge.id }
  return (⟨assignEdge st.1.edges edge, assignNode (assignNode st.1.nodes startNode) endNode⟩, c)

/-- `BuildGraph`, src/maliput/routing/graph/graph.cc:99-130. -/
def buildGraph (net : Net) : Except Err Graph := do
  let st ← net.segments.foldlM (addSegment net) (⟨[], []⟩, 0)
  return st.1

/-- How a recursive search can stop without a result: a C++ exception, or a recursion that is deeper than
the bound of the model. -/
inductive Stop
  | err (e : Err)
  | depth
  deriving DecidableEq, Repr

/-- An exception ends the search. -/
def lift {α : Type} : Except Err α → Except Stop α
  | .ok a => .ok a
  | .error e => .error (.err e)

/-- `FindAllEdgeSequencesHelper`, src/maliput/routing/graph/graph_utils.cc:43-68.  The number bounds the
depth of the recursion. -/
def edgeSequencesHelper (g : Graph) (end_ : Nat) : Nat → Node → List Nat → Except Stop (List (List Edge))
  | 0, _, _ => .error .depth
  | n + 1, start, visited =>
    start.edges.foldlM (fun result edgeId => do
      let edge ← lift (g.edgeAt edgeId)
      let next ← lift (g.nodeAt (if edge.nodeA = start.id then edge.nodeB else edge.nodeA))
      if next.id ∈ visited then return result
      else if next.id = end_ then return result ++ [[edge]]
      else do
        let subsequences ← edgeSequencesHelper g end_ n next (setInsert visited next.id)
        return result ++ subsequences.map (edge :: ·)) []

/-- `struct ConnectionSet`, src/maliput/routing/graph/graph_utils.cc:72-75. -/
structure ConnectionSet where
  incoming : Which
  ongoing : Which
  deriving DecidableEq, Repr

/-- `BuildConnectionSet`, src/maliput/routing/graph/graph_utils.cc:89-110, for non-null segments. -/
def buildConnectionSet (i o : Edge) : Except Err ConnectionSet :=
  if i.nodeA = o.nodeA then .ok ⟨.start, .start⟩
  else if i.nodeA = o.nodeB then .ok ⟨.start, .finish⟩
  else if i.nodeB = o.nodeA then .ok ⟨.finish, .start⟩
  else if i.nodeB = o.nodeB then .ok ⟨.finish, .finish⟩
  else .error .throws

/-- The lambda `compute_connecting_edges`, src/maliput/routing/graph/graph_utils.cc:127-133. -/
def connectingBranchPoints (net : Net) (e : Edge) (w : Which) : List Nat :=
  (net.segLanes e.segment).map fun l => net.bp ⟨l, w⟩

/-- The lambda `is_edge_on_a_side`, src/maliput/routing/graph/graph_utils.cc:144-153. -/
def isOnASide (net : Net) (bp : Nat) (e : Edge) : Bool :=
  (net.aSide bp).any fun le => net.laneSeg le.lane == e.segment

/-- `EdgesConnectToBranchPointsFromOpposingSides`, src/maliput/routing/graph/graph_utils.cc:125-155.  The
first element of the set of common branch points is the one with the smallest address. -/
def fromOpposingSides (net : Net) (ref target : Edge) : Except Err Bool := do
  let cs ← buildConnectionSet ref target
  let refBps := connectingBranchPoints net ref cs.incoming
  let targetBps := connectingBranchPoints net target cs.ongoing
  match (refBps.filter (fun b => decide (b ∈ targetBps))).min? with
  | none => return false
  | some bp => return isOnASide net bp ref != isOnASide net bp target

/-- The loop of `IsSequenceDrivable`, src/maliput/routing/graph/graph_utils.cc:173-178. -/
def drivableLoop (net : Net) : Edge → List Edge → Except Err Bool
  | _, [] => .ok true
  | e, f :: rest => do
    if ← fromOpposingSides net e f then drivableLoop net f rest else return false

/-- `IsSequenceDrivable`, src/maliput/routing/graph/graph_utils.cc:166-179. -/
def isSequenceDrivable (net : Net) : List Edge → Except Err Bool
  | [] => .error .throws
  | e :: rest => drivableLoop net e rest

/-- `FindAllEdgeSequences`, src/maliput/routing/graph/graph_utils.cc:183-195. -/
def findAllEdgeSequences (net : Net) (g : Graph) (depth : Nat) (start end_ : Node) :
    Except Stop (List (List Edge)) := do
  lift (throwUnless (g.nodes.any (fun n => n.id == start.id)))
  lift (throwUnless (g.nodes.any (fun n => n.id == end_.id)))
  if start.id = end_.id then return []
  let unfiltered ← edgeSequencesHelper g end_.id depth start [start.id]
  lift (unfiltered.filterM (isSequenceDrivable net))

/-- `FindNode(graph, lane, end)`, src/maliput/routing/graph/graph_utils.cc:197-206. -/
def findNode (net : Net) (g : Graph) (lane : Nat) (w : Which) : Option Node :=
  g.nodes.find? (fun n => decide (net.bp ⟨lane, w⟩ ∈ n.branchPoints))

/-- `DetermineEdgeEnd`, src/maliput/routing/graph/graph_utils.cc:208-221. -/
def determineEdgeEnd (g : Graph) (ref target : Edge) : Except Err (Option Which) := do
  if ref.segment = target.segment then return none
  let nodeA ← g.nodeAt ref.nodeA
  if target.id ∈ nodeA.edges then return some .start
  let nodeB ← g.nodeAt ref.nodeB
  if target.id ∈ nodeB.edges then return some .finish
  return none

end Maliput.RouteGraph
