import Verif.Model.Intersection
import Verif.Model.PhaseRingLoader

set_option autoImplicit false

/-!
Model of src/maliput/base/intersection_book_loader.cc.  The phase provider is changed while the document is
read: it is a state, and a document that is rejected leaves the changes made before the failure.  The pointers
to the road geometry and to the phase provider are assumed not to be null.
-/
namespace Maliput.Loader

open Maliput.Yaml Maliput.Rules Maliput.Phases
open Maliput.Intersections (Intersection)
open Maliput.Rulebook (getRightOfWay getDiscreteValueRule)

/-- `GetRegion`, src/maliput/base/intersection_book_loader.cc:76-86. -/
def getRegion (rulebook : Rulebook.Book) (phase : Phase) : Except Err (List LaneSRange) := do
  let zones ← phase.discreteStates.entries.mapM fun e => do
    let rule ← getDiscreteValueRule rulebook e.1
    return rule.zone
  return zones.flatten

/-- `GetRegionOfOldRules`, src/maliput/base/intersection_book_loader.cc:61-74. -/
def getRegionOfOldRules (rulebook : Rulebook.Book) (phase : Phase) : Except Err (List LaneSRange) := do
  let zones ← phase.ruleStates.entries.mapM fun e => do
    let rule ← getRightOfWay rulebook e.1
    return rule.zone
  return zones.flatten

/-- What `BuildIntersection` reads before it changes the phase provider,
src/maliput/base/intersection_book_loader.cc:92-112: the ids of the intersection, of the ring and of the
phase, the ring, and the first next phase. -/
def readIntersection (rings : Phases.Book) (n : Node) :
    Except Err (String × String × String × Ring × Option NextPhase) := do
  n.needMap
  let idNode ← required n "ID"
  let ringNode ← required n "PhaseRing"
  let phaseNode ← required n "InitialPhase"
  let id ← idNode.asId
  let ringId ← ringNode.asId
  let phaseId ← phaseNode.asId
  match getPhaseRing rings ringId with
  | none => .error .throws
  | some ring => do
    throwUnless (decide (ring.phases.size > 0))
    throwUnless (ring.phases.has phaseId)
    let nexts ← ring.nextPhases.at! phaseId
    return (id, ringId, phaseId, ring, nexts.head?)

/-- The change of the phase provider, src/maliput/base/intersection_book_loader.cc:113-117. -/
def putPhase (p : Provider) (ringId phaseId : String) (next : Option String) (duration : Option ℚ) :
    Outcome Provider :=
  if !(p.getPhase ringId).isSome then p.addPhaseRing ringId phaseId next duration
  else p.setPhase ringId phaseId next duration

/-- The region of an intersection, src/maliput/base/intersection_book_loader.cc:122-123.  The phase that
`phases().begin()` points at is the first of the list of entries; without one the behaviour is undefined. -/
def regionOf (rulebook : Rulebook.Book) (ring : Ring) : Except Err (List LaneSRange) :=
  match ring.phases.entries with
  | [] => .error .ub
  | e :: _ => do
    let region ← getRegion rulebook e.2
    if region.isEmpty then getRegionOfOldRules rulebook e.2 else return region

/-- `BuildIntersection`, src/maliput/base/intersection_book_loader.cc:88-125. -/
def buildIntersection (rulebook : Rulebook.Book) (rings : Phases.Book) (p : Provider) (n : Node) :
    Provider × Except Err Intersection :=
  match readIntersection rings n with
  | .error e => (p, .error e)
  | .ok (id, ringId, phaseId, ring, next) =>
    match putPhase p ringId phaseId (next.map (·.id)) (next.bind (·.durationUntil)) with
    | (p', .error e) => (p', .error e)
    | (p', .ok ()) => (p', do
        let region ← regionOf rulebook ring
        return ⟨id, region, ring⟩)

/-- The loop of `BuildFrom`, src/maliput/base/intersection_book_loader.cc:138-140. -/
def addIntersections (rulebook : Rulebook.Book) (rings : Phases.Book) :
    List Node → Provider → Intersections.Book → Provider × Except Err Intersections.Book
  | [], p, b => (p, .ok b)
  | n :: ns, p, b =>
    match buildIntersection rulebook rings p n with
    | (p', .error e) => (p', .error e)
    | (p', .ok i) =>
      match b.add (some i) with
      | (_, .error e) => (p', .error e)
      | (b', .ok ()) => addIntersections rulebook rings ns p' b'

/-- `LoadIntersectionBook`, src/maliput/base/intersection_book_loader.cc:146-151, with `BuildFrom`, lines
127-142: the phase provider afterwards and the book. -/
def loadIntersections (rulebook : Rulebook.Book) (rings : Phases.Book) (p : Provider) (root : Doc) :
    Provider × Except Err Intersections.Book :=
  match (do
    Node.needMap (some root)
    let v ← Node.field (some root) "Intersections"
    if !v.isDefined then return []
    v.needSeq
    return v.nodes : Except Err (List Node)) with
  | .error e => (p, .error e)
  | .ok nodes => addIntersections rulebook rings nodes p .empty

end Maliput.Loader
