import Verif.Model.Intersection
import Verif.Spec.PhaseRingLoader

set_option autoImplicit false

/-!
The intersection document format: what a document says about an intersection, which intersection that
describes, and what it means for the phases of the rings.
-/
namespace Maliput.Loader.Spec

open Maliput.Rules Maliput.Phases Maliput.Phases.Spec Maliput.Yaml Maliput.Yaml.Spec
open Maliput.Intersections (Intersection)

/-- The rings of the book were constructed by the user and are found by their ids. -/
def BuiltRings (rings : Phases.Book) : Prop :=
  ∀ id r, getPhaseRing rings id = some r → r.id = id ∧ Valid r

/-- The content of an intersection in a document: its id, the id of its ring and of the initial phase. -/
structure IntersectionSays where
  id : String
  ring : String
  phase : String

/-- What `d` says about an intersection. -/
structure SaysIntersection (d : Doc) (x : IntersectionSays) : Prop where
  id : FieldReads d "ID" x.id
  ring : FieldReads d "PhaseRing" x.ring
  phase : FieldReads d "InitialPhase" x.phase
  named : x.id ≠ "" ∧ x.ring ≠ "" ∧ x.phase ≠ ""

/-- The intersections of a document; it may have none. -/
def SaysIntersections (root : Doc) (docs : List Doc) : Prop :=
  HasField root "Intersections" (.seq docs) ∨ (LacksField root "Intersections" ∧ docs = [])

/-- The ring is known and has the initial phase. -/
def KnownPhase (rings : Phases.Book) (x : IntersectionSays) (r : Ring) : Prop :=
  getPhaseRing rings x.ring = some r ∧ ∃ p, r.getPhase x.phase = some p

/-- `region` is the concatenation, in some order, of the zones of the rules that `covers` holds for, each of
them taken once; `zone` gives the zone of a rule of the rulebook. -/
def IsUnionOfZones (covers : String → Prop) (zone : String → List LaneSRange → Prop) (region : List LaneSRange) :
    Prop :=
  ∃ ids zones, ids.Nodup ∧ (∀ k, k ∈ ids ↔ covers k) ∧ List.Forall₂ zone ids zones ∧ region = zones.flatten

/-- The zone of a discrete value rule of the rulebook. -/
def DiscreteZone (rulebook : Rulebook.Book) (k : String) (zone : List LaneSRange) : Prop :=
  ∃ r, Rulebook.getDiscreteValueRule rulebook k = .ok r ∧ r.zone = zone

/-- The zone of a right-of-way rule of the rulebook. -/
def RowZone (rulebook : Rulebook.Book) (k : String) (zone : List LaneSRange) : Prop :=
  ∃ r, Rulebook.getRightOfWay rulebook k = .ok r ∧ r.zone = zone

/-- The region of an intersection with the ring `r`: the zones of its discrete value rules or, if these are
empty, the zones of its right-of-way rules. -/
def IsRegion (rulebook : Rulebook.Book) (r : Ring) (region : List LaneSRange) : Prop :=
  (region ≠ [] ∧ IsUnionOfZones (CoversDiscrete r) (DiscreteZone rulebook) region) ∨
    (IsUnionOfZones (CoversDiscrete r) (DiscreteZone rulebook) [] ∧
      IsUnionOfZones (CoversRow r) (RowZone rulebook) region)

/-- The rules of the ring that determine the region are in the rulebook. -/
def KnownRules (rulebook : Rulebook.Book) (r : Ring) : Prop :=
  (∀ k, CoversDiscrete r k → ∃ zone, DiscreteZone rulebook k zone) ∧
    ((∃ k l zone, CoversDiscrete r k ∧ DiscreteZone rulebook k (l :: zone)) ∨
      ∀ k, CoversRow r k → ∃ zone, RowZone rulebook k zone)

/-- `i` is the described intersection. -/
structure IsIntersection (rulebook : Rulebook.Book) (rings : Phases.Book) (x : IntersectionSays) (i : Intersection) :
    Prop where
  id : i.id = x.id
  ring : getPhaseRing rings x.ring = some i.ring
  region : IsRegion rulebook i.ring i.region

/-- The phase that an intersection gives to its ring: the initial phase, to be followed by the first of the
next phases of that phase, if there is one. -/
def IsInitial (rings : Phases.Book) (x : IntersectionSays) (a : String × Result String) : Prop :=
  a.1 = x.ring ∧ ∃ r l, KnownPhase rings x r ∧ r.getNextPhases x.phase = .ok l ∧
    a.2.state = x.phase ∧ a.2.next = l.head?.map fun n => (n.id, n.durationUntil)

/-- The phases of rings after reading the intersections: for each ring the last intersection that names it
decides; the other rings are as before. -/
def PhasesAfter (rings : Phases.Book) (xs : List IntersectionSays) (p p' : Provider) : Prop :=
  ∃ assigned, List.Forall₂ (IsInitial rings) xs assigned ∧
    ∀ k res, p'.getPhase k = some res ↔
      LastOf assigned k res ∨ ((∀ x ∈ xs, x.ring ≠ k) ∧ p.getPhase k = some res)

end Maliput.Loader.Spec
