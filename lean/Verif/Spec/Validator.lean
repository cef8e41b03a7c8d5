import Verif.Model.Validator
import Verif.Spec.FirstWithId
import Verif.Spec.Phases
import Verif.Spec.Rulebook
import Verif.Spec.Rules

set_option autoImplicit false

/-!
Specification of a consistent road network, in terms of the road geometry and of the histories of calls
that filled the rulebook, the book of traffic lights and the book of phase rings.
-/
namespace Maliput.Validator.Spec

open Maliput.Topo (Which LaneEnd)
open Maliput.Rules

variable {Pos Rot : Type}

/-- `l` is the list of the (non-null) pointers `l'`. -/
def Pointers (l : List (Option Nat)) (l' : List Nat) : Prop := l = l'.map some

/-! ### The road geometry -/

/-- The lane `l` of segment `s` is where it says it is, can be found by its id, and has a branch point at
each end. -/
structure LaneOk (g : Geometry Pos Rot) (s l : Nat) : Prop where
  parent : (g.lane l).segment = some s
  byId : g.laneById (g.lane l).id = some l
  start : ∃ b, (g.lane l).bpStart = some b
  finish : ∃ b, (g.lane l).bpFinish = some b

/-- The segment `s` of junction `j` is where it says it is, can be found by its id and has good lanes. -/
structure SegmentOk (g : Geometry Pos Rot) (j s : Nat) : Prop where
  parent : (g.segment s).junction = some j
  byId : g.segmentById (g.segment s).id = some s
  lanes : ∃ ls, Pointers (g.segment s).lanes ls ∧ ls ≠ [] ∧ ∀ l ∈ ls, LaneOk g s l

/-- The junction belongs to the road geometry, can be found by its id and has good segments. -/
structure JunctionOk (g : Geometry Pos Rot) (j : Nat) : Prop where
  parent : (g.junction j).owner = .this
  byId : g.junctionById (g.junction j).id = some j
  segments : ∃ ss, Pointers (g.junction j).segments ss ∧ ss ≠ [] ∧ ∀ s ∈ ss, SegmentOk g j s

/-- The branch point belongs to the road geometry, can be found by its id and connects some lane. -/
structure BranchPointOk (g : Geometry Pos Rot) (b : Nat) : Prop where
  parent : (g.branchPoint b).owner = .this
  byId : g.branchPointById (g.branchPoint b).id = some b
  sides : ∃ as bs, (g.branchPoint b).aSide = some as ∧ (g.branchPoint b).bSide = some bs ∧ as ++ bs ≠ []

/-- The hierarchy of a road geometry is consistent. -/
structure Hierarchy (g : Geometry Pos Rot) : Prop where
  junctions : ∃ js, Pointers g.junctions js ∧ js ≠ [] ∧ ∀ j ∈ js, JunctionOk g j
  branchPoints : ∃ bs, Pointers g.branchPoints bs ∧ 2 ≤ bs.length ∧ ∀ b ∈ bs, BranchPointOk g b

/-- The inertial position of a lane end. -/
def endPos (g : Geometry Pos Rot) : LaneEnd → Pos
  | ⟨l, .start⟩ => g.position l 0
  | ⟨l, .finish⟩ => g.position l (g.lane l).length

/-- The orientation of a lane at an end, looking out of the lane. -/
def outOf (g : Geometry Pos Rot) : LaneEnd → Rot
  | ⟨l, .start⟩ => g.reverse (g.orientation l 0)
  | ⟨l, .finish⟩ => g.orientation l (g.lane l).length

/-- The lane ends that meet at a branch point are continuous with its first one, `ref`: all are where `ref`
is; those on the side of `ref` look out in the same direction, the others in the opposite one. -/
structure Continuous (g : Geometry Pos Rot) (ref : LaneEnd) (same others : List LaneEnd) : Prop where
  position : ∀ e ∈ same ++ others, g.posDist (endPos g ref) (endPos g e) ≤ g.linearTolerance
  same : ∀ e ∈ same, g.rotDist (outOf g ref) (outOf g e) ≤ g.angularTolerance
  others : ∀ e ∈ others, g.rotDist (g.reverse (outOf g ref)) (outOf g e) ≤ g.angularTolerance

/-- The two sides of a branch point are continuous; it has at least one lane. -/
def ContinuousAt (g : Geometry Pos Rot) (as bs : List LaneEnd) : Prop :=
  (∃ ref as', as = ref :: as' ∧ Continuous g ref as bs) ∨
  (∃ ref bs', as = [] ∧ bs = ref :: bs' ∧ Continuous g ref bs [])

/-- What `CheckInvariants` promises: objects are where they say they are, lanes know their index, and
lanes are continuous at branch points. -/
structure Invariants (g : Geometry Pos Rot) : Prop where
  junctions : ∃ js, Pointers g.junctions js ∧ ∀ j ∈ js, (g.junction j).owner = .this ∧
    ∃ ss, Pointers (g.junction j).segments ss ∧ ∀ s ∈ ss, (g.segment s).junction = some j ∧
      ∃ ls, Pointers (g.segment s).lanes ls ∧ ∀ (i : Nat) (l : Nat), ls[i]? = some l →
        (g.lane l).segment = some s ∧ (g.lane l).index = i
  branchPoints : ∃ bs, Pointers g.branchPoints bs ∧ ∀ b ∈ bs, (g.branchPoint b).owner = .this ∧
    ∃ x y, (g.branchPoint b).aSide = some x ∧ (g.branchPoint b).bSide = some y ∧ ContinuousAt g x y

/-- `s` is a segment of the junction `j` of the road geometry. -/
def SegmentOf (g : Geometry Pos Rot) (j s : Nat) : Prop :=
  some j ∈ g.junctions ∧ some s ∈ (g.junction j).segments

/-- `as` and `bs` are the sides of the branch point `b` of the road geometry. -/
def SidesOf (g : Geometry Pos Rot) (b : Nat) (as bs : List LaneEnd) : Prop :=
  some b ∈ g.branchPoints ∧ (g.branchPoint b).aSide = some as ∧ (g.branchPoint b).bSide = some bs

/-- What each message of `CheckInvariants` says. -/
def Violation (g : Geometry Pos Rot) : Failure → Prop
  | .branchPointOwner b => some b ∈ g.branchPoints ∧ (g.branchPoint b).owner ≠ .this
  | .junctionOwner j => some j ∈ g.junctions ∧ (g.junction j).owner ≠ .this
  | .segmentOwner s => ∃ j, SegmentOf g j s ∧ (g.segment s).junction ≠ some j
  | .laneOwner l => ∃ j s, SegmentOf g j s ∧ some l ∈ (g.segment s).lanes ∧ (g.lane l).segment ≠ some s
  | .laneIndex l => ∃ j s, SegmentOf g j s ∧ ∃ i : Nat, (g.segment s).lanes[i]? = some (some l) ∧ (g.lane l).index ≠ i
  | .emptyBranchPoint b => SidesOf g b [] []
  | .position e => ∃ b as bs ref, SidesOf g b as bs ∧ (as ++ bs).head? = some ref ∧ e ∈ as ++ bs ∧
      g.linearTolerance < g.posDist (endPos g ref) (endPos g e)
  | .orientation e => ∃ b as bs ref, SidesOf g b as bs ∧ (as ++ bs).head? = some ref ∧
      ((((ref ∈ as ∧ e ∈ as) ∨ (as = [] ∧ e ∈ bs)) ∧
          g.angularTolerance < g.rotDist (outOf g ref) (outOf g e)) ∨
       (ref ∈ as ∧ e ∈ bs ∧ g.angularTolerance < g.rotDist (g.reverse (outOf g ref)) (outOf g e)))

/-- No pointer that leads through the road geometry is null. -/
structure NoNull (g : Geometry Pos Rot) : Prop where
  junctions : ∀ o ∈ g.junctions, ∃ j, o = some j ∧ (g.junction j).owner ≠ .null ∧
    ∀ o ∈ (g.junction j).segments, ∃ s, o = some s ∧ (g.segment s).junction ≠ none ∧
      ∀ o ∈ (g.segment s).lanes, ∃ l, o = some l ∧ (g.lane l).segment ≠ none
  branchPoints : ∀ o ∈ g.branchPoints, ∃ b, o = some b ∧ (g.branchPoint b).owner ≠ .null ∧
    (g.branchPoint b).aSide ≠ none ∧ (g.branchPoint b).bSide ≠ none

/-! ### Rules, lights and phases -/

/-- The network of a geometry and of three books with the given histories. -/
def network (g : Geometry Pos Rot) (rules : List Rulebook.Op) (lights : List (Option TrafficLights.TrafficLight))
    (rings : List Phases.Op) : Network Pos Rot :=
  ⟨g, Rulebook.run rules, TrafficLights.Book.run lights, Phases.run rings⟩

/-- Every lane has a direction usage rule whose zone touches it. -/
def Covered (g : Geometry Pos Rot) (rules : List Rulebook.Op) : Prop :=
  ∀ id l, g.lanes.get? id = some l → 0 ≤ (g.lane l).length ∧
    ∃ r, .directionUsage r ∈ Rulebook.Spec.live rules ∧
      Maliput.Spec.CloseLaneRanges r.zone ⟨id, 0, (g.lane l).length⟩ 0

/-- The light with id `light` of the book has a bulb group with id `group`. -/
def HasGroup (lights : List (Option TrafficLights.TrafficLight)) (light group : String) : Prop :=
  ∃ t, Maliput.Spec.FirstWithId (·.id) lights t ∧ t.id = light ∧ ∃ g ∈ t.groups, g.id = group

/-- The bulb groups that right-of-way rules mention exist. -/
def BulbGroups (rules : List Rulebook.Op) (lights : List (Option TrafficLights.TrafficLight)) : Prop :=
  ∀ r, .rightOfWay r ∈ Rulebook.Spec.live rules → ∀ light gs, r.relatedBulbGroups.get? light = some gs →
    ∀ g ∈ gs, HasGroup lights light g

/-- Both lanes exist and the end of `a` meets the beginning of `b`, within both tolerances. -/
def Meet (g : Geometry Pos Rot) (a b : LaneSRange) : Prop :=
  ∃ la lb, g.laneById a.laneId = some la ∧ g.laneById b.laneId = some lb ∧
    g.posDist (g.position la a.sRange.s1) (g.position lb b.sRange.s0) < g.linearTolerance ∧
    g.rotDist (g.orientation la a.sRange.s1) (g.orientation lb b.sRange.s0) < g.angularTolerance

/-- Every range of the route meets the next one. -/
def Contiguous (g : Geometry Pos Rot) (route : List LaneSRange) : Prop :=
  ∀ pre a b post, route = pre ++ a :: b :: post → Meet g a b

/-- The zones of all discrete and range value rules are contiguous. -/
def Zones (g : Geometry Pos Rot) (rules : List Rulebook.Op) : Prop :=
  (∀ r, .discreteValue r ∈ Rulebook.Spec.live rules → Contiguous g r.zone) ∧
  (∀ r, .rangeValue r ∈ Rulebook.Spec.live rules → Contiguous g r.zone)

/-- `p` is a phase of a ring of the book. -/
def PhaseIn (rings : List Phases.Op) (p : Phases.Phase) : Prop :=
  ∃ r ∈ Phases.Spec.live rings, ∃ k, r.getPhase k = some p

/-- The value `v` of a rule's state and the severity are those of `w`; the groups of related rules and ids
are those of `w`, and the ids of `v` are among those of `w`. -/
def Resembles (v w : DiscreteValue) : Prop :=
  v.value = w.value ∧ v.severity = w.severity ∧ Rules.Spec.Within v.relatedRules w.relatedRules ∧
    Rules.Spec.Within v.relatedUniqueIds w.relatedUniqueIds

/-- The states that phases give to discrete value rules resemble states of existing rules. -/
def PhaseValues (rules : List Rulebook.Op) (rings : List Phases.Op) : Prop :=
  ∀ p, PhaseIn rings p → ∀ id w, p.discreteStates.get? id = some w →
    ∃ r, .discreteValue r ∈ Rulebook.Spec.live rules ∧ r.id = id ∧ ∃ v ∈ r.states, Resembles v w

/-- The bulb with the unique id `u` exists and can be in state `s`. -/
def HasBulb (lights : List (Option TrafficLights.TrafficLight)) (u : TrafficLights.UniqueBulbId)
    (s : TrafficLights.BulbState) : Prop :=
  ∃ t, Maliput.Spec.FirstWithId (·.id) lights t ∧ t.id = u.light ∧
    ∃ g ∈ t.groups, g.id = u.group ∧ ∃ b ∈ g.bulbs, b.id = u.bulb ∧ s ∈ b.states

/-- The bulbs and states of phases exist. -/
def PhaseBulbs (lights : List (Option TrafficLights.TrafficLight)) (rings : List Phases.Op) : Prop :=
  ∀ p, PhaseIn rings p → ∀ m, p.bulbStates = some m → ∀ u s, m.get? u = some s → HasBulb lights u s

/-- There is a discrete or range value rule with that id. -/
def HasRule (rules : List Rulebook.Op) (id : String) : Prop :=
  (∃ r, .discreteValue r ∈ Rulebook.Spec.live rules ∧ r.id = id) ∨
  (∃ r, .rangeValue r ∈ Rulebook.Spec.live rules ∧ r.id = id)

/-- The related rules of a state exist. -/
def RelatedExist (rules : List Rulebook.Op) (s : State) : Prop :=
  ∀ group, ∀ id ∈ Rules.Spec.ids s.relatedRules group, HasRule rules id

/-- The related rules of all states exist. -/
def RelatedRules (rules : List Rulebook.Op) : Prop :=
  (∀ r, .discreteValue r ∈ Rulebook.Spec.live rules → ∀ v ∈ r.states, RelatedExist rules v.toState) ∧
  (∀ r, .rangeValue r ∈ Rulebook.Spec.live rules → ∀ v ∈ r.states, RelatedExist rules v.toState)

end Maliput.Validator.Spec
