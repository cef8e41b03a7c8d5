import Verif.Model.Graph

set_option autoImplicit false

/-! Graphs of segments, and the sequences of edges between two nodes. -/
namespace Maliput.RouteGraph
open Maliput.Topo

/-- The edge joins the two nodes. -/
def Edge.Joins (e : Edge) (x y : Nat) : Prop := (e.nodeA = x ∧ e.nodeB = y) ∨ (e.nodeA = y ∧ e.nodeB = x)

/-- The maps are keyed by the ids, the ends of the edges exist, and a node lists the edges that end at it. -/
structure Graph.WellFormed (g : Graph) : Prop where
  edgeIds : (g.edges.map Edge.id).Nodup
  nodeIds : (g.nodes.map Node.id).Nodup
  ends : ∀ e ∈ g.edges, (∃ n ∈ g.nodes, n.id = e.nodeA) ∧ (∃ n ∈ g.nodes, n.id = e.nodeB)
  incident : ∀ n ∈ g.nodes, ∀ id, id ∈ n.edges ↔ ∃ e ∈ g.edges, e.id = id ∧ (e.nodeA = n.id ∨ e.nodeB = n.id)

/-- A walk along edges of the graph and the nodes it visits. -/
inductive Walk (g : Graph) : Nat → List Edge → List Nat → Prop
  | nil (x : Nat) : Walk g x [] [x]
  | cons {x y : Nat} {e : Edge} {es : List Edge} {ns : List Nat} (he : e ∈ g.edges) (hj : e.Joins x y)
      (hw : Walk g y es ns) : Walk g x (e :: es) (x :: ns)

/-- A sequence of edges that leads from `start` to `end_` and visits no node twice. -/
def IsEdgeSequence (g : Graph) (start end_ : Nat) (p : List Edge) : Prop :=
  ∃ ns, Walk g start p ns ∧ ns.Nodup ∧ ns.getLast? = some end_

/-- Some lane end of the one segment and some lane end of the other are attached to the same branch point,
on different sides. -/
def Opposing (net : Net) (s t : Nat) : Prop :=
  ∃ le le' : LaneEnd, le.lane ∈ net.segLanes s ∧ le'.lane ∈ net.segLanes t ∧ net.bp le = net.bp le' ∧
    (le ∈ net.aSide (net.bp le) ↔ le' ∉ net.aSide (net.bp le))

/-- A road geometry: the lanes of a segment know it, the ends on a side of a branch point know it. -/
structure Net.WellFormed (net : Net) : Prop where
  segmentsNodup : net.segments.Nodup
  segIds : ∀ s ∈ net.segments, ∀ t ∈ net.segments, net.segId s = net.segId t → s = t
  laneSeg : ∀ s l, l ∈ net.segLanes s → net.laneSeg l = s
  segLane : ∀ b, ∀ le ∈ net.aSide b, le.lane ∈ net.segLanes (net.laneSeg le.lane)
  side : ∀ b, ∀ le ∈ net.aSide b, net.bp le = b

/-- The node at an end of an edge. -/
def Edge.endNode (e : Edge) : Which → Nat
  | .start => e.nodeA
  | .finish => e.nodeB

/-- Lane ends of the two segments that are attached to the same branch point. -/
def Shared (net : Net) (s t : Nat) (le le' : LaneEnd) : Prop :=
  le.lane ∈ net.segLanes s ∧ le'.lane ∈ net.segLanes t ∧ net.bp le = net.bp le'

/-- All branch points that two segments share agree on whether the segments are attached on the same side. -/
def SidesAgree (net : Net) (s t : Nat) : Prop :=
  ∀ le le' m m', Shared net s t le le' → Shared net s t m m' →
    ((le ∈ net.aSide (net.bp le) ↔ le' ∈ net.aSide (net.bp le)) ↔
      (m ∈ net.aSide (net.bp m) ↔ m' ∈ net.aSide (net.bp m)))

/-- The two edges meet at one place only: shared branch points belong to a shared node, and only one end of
the one is at the same node as one end of the other. -/
structure OneInterface (net : Net) (e f : Edge) : Prop where
  shared : ∀ le le', Shared net e.segment f.segment le le' → e.endNode le.which = f.endNode le'.which
  single : ∀ w w' v v', e.endNode w = f.endNode w' → e.endNode v = f.endNode v' → w = v ∧ w' = v'
  agree : SidesAgree net e.segment f.segment

/-- At every two segment ends the branch points are the same or have nothing in common, and the two ends
of a segment have nothing in common. -/
structure UniformInterfaces (net : Net) : Prop where
  same : ∀ s ∈ net.segments, ∀ t ∈ net.segments, ∀ w v, ∀ l ∈ net.segLanes s, ∀ m ∈ net.segLanes t,
    net.bp ⟨l, w⟩ = net.bp ⟨m, v⟩ → ∀ l' ∈ net.segLanes s, ∃ m' ∈ net.segLanes t, net.bp ⟨l', w⟩ = net.bp ⟨m', v⟩
  ends : ∀ s ∈ net.segments, ∀ l ∈ net.segLanes s, ∀ m ∈ net.segLanes s, net.bp ⟨l, .start⟩ ≠ net.bp ⟨m, .finish⟩

end Maliput.RouteGraph
