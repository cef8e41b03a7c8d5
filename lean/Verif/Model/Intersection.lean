import Verif.Model.Phases
import Verif.Model.Regions

set_option autoImplicit false

/-!
Model of src/maliput/api/intersection.cc, src/maliput/base/intersection.cc and
src/maliput/base/intersection_book.cc.  `Phase()` is virtual in `api::Intersection`: the functions below
take it as the argument `phaseOf`; `basePhase` is the implementation of `maliput::Intersection`.
-/
namespace Maliput.Intersections

open Maliput.Phases (Ring Result Provider)
open Maliput.TrafficLights (UniqueBulbId BulbState)
open Maliput.Rules (DiscreteValue)

/-- The members of `api::Intersection`, include/maliput/api/intersection.h:139-141. -/
structure Intersection where
  id : String
  region : List LaneSRange
  ring : Ring
  deriving DecidableEq

/-- `Phase() const` of an intersection: the current phase as given by its phase provider, or nothing. -/
abbrev PhaseOf := Intersection → Option (Result String)

/-- `maliput::Intersection::Phase`, src/maliput/base/intersection.cc:42-44. -/
def basePhase (p : Provider) : PhaseOf := fun i => p.getPhase i.ring.id

/-- `maliput::Intersection::SetPhase`, src/maliput/base/intersection.cc:46-50. -/
def Intersection.setPhase (i : Intersection) (p : Provider) (phase : String) (next : Option String)
    (duration : Option ℚ) : Outcome Provider := p.setPhase i.ring.id phase next duration

/-- `bulb_states`, src/maliput/api/intersection.cc:42-50. -/
def Intersection.bulbStates (i : Intersection) (phaseOf : PhaseOf) :
    Except Err (Option (Map UniqueBulbId BulbState)) :=
  match phaseOf i with
  | none => .ok none
  | some res => do
    let phase ← i.ring.phases.at! res.state
    return phase.bulbStates

/-- `DiscreteValueRuleStates`, src/maliput/api/intersection.cc:52-60. -/
def Intersection.discreteStates (i : Intersection) (phaseOf : PhaseOf) :
    Except Err (Option (Map String DiscreteValue)) :=
  match phaseOf i with
  | none => .ok none
  | some res => do
    let phase ← i.ring.phases.at! res.state
    return some phase.discreteStates

/-- `RuleStates`, src/maliput/api/intersection.cc:64-73. -/
def Intersection.ruleStates (i : Intersection) (phaseOf : PhaseOf) :
    Except Err (Option (Map String String)) :=
  match phaseOf i with
  | none => .ok none
  | some res => do
    let phase ← i.ring.phases.at! res.state
    return some phase.ruleStates

/-- `Includes(const TrafficLight::Id&)`, src/maliput/api/intersection.cc:76-86. -/
def Intersection.includesLight (i : Intersection) (phaseOf : PhaseOf) (id : String) : Except Err Bool := do
  let b ← i.bulbStates phaseOf
  match b with
  | none => return false
  | some m => return m.keys.any fun k => decide (k.light = id)

/-- `Includes(const DiscreteValueRule::Id&)`, src/maliput/api/intersection.cc:88-93. -/
def Intersection.includesDiscrete (i : Intersection) (phaseOf : PhaseOf) (id : String) : Except Err Bool := do
  let b ← i.discreteStates phaseOf
  match b with
  | none => return false
  | some m => return m.has id

/-- `Includes(const RightOfWayRule::Id&)`, src/maliput/api/intersection.cc:97-100. -/
def Intersection.includesRow (i : Intersection) (phaseOf : PhaseOf) (id : String) : Except Err Bool := do
  let b ← i.ruleStates phaseOf
  match b with
  | none => return false
  | some m => return m.has id

/-- `Includes(const InertialPosition&, const RoadGeometry*)`, src/maliput/api/intersection.cc:103-106 (the
book's road geometry is not null, src/maliput/base/intersection_book.cc:49). -/
def Intersection.includesPosition {Pos : Type} (i : Intersection) (g : IncludeGeometry Pos) (pos : Pos) :
    Except Err Bool := isIncluded g pos i.region

/-! ### The book -/

/-- The member `book_`, src/maliput/base/intersection_book.cc:91. -/
abbrev Book := Map String Intersection

/-- `AddIntersection`, src/maliput/base/intersection_book.cc:54-60.  `book_.emplace(intersection->id(),
std::move(intersection))` is allowed to move from the pointer even if the id is already in use (and
libstdc++ does: it builds the node first), so that line 58 dereferences a null pointer to format the
message of the exception. -/
def Book.add (b : Book) (i : Option Intersection) : Outcome Book :=
  match i with
  | none => (b, .error .throws)
  | some i =>
    let (b', isNew) := b.emplace i.id i
    (b', if isNew then .ok () else .error .ub)

/-- `DoGetIntersections`, src/maliput/base/intersection_book.cc:62-70. -/
def Book.intersections (b : Book) : List Intersection := b.entries.map (·.2)

/-- `DoGetIntersection`, src/maliput/base/intersection_book.cc:72-78. -/
def Book.getIntersection (b : Book) (id : String) : Option Intersection := b.get? id

/-- The loop of the four `DoGetFindIntersection`, src/maliput/base/intersection_book.cc:80-87, 127-134,
136-143, 151-158: the first intersection whose `Includes` answers true. -/
def findFirst (incl : Intersection → Except Err Bool) : List Intersection → Except Err (Option Intersection)
  | [] => .ok none
  | i :: is => do
    let b ← incl i
    if b then return some i else findFirst incl is

/-- `DoGetFindIntersection(const TrafficLight::Id&)`, src/maliput/base/intersection_book.cc:127-134. -/
def Book.findByLight (b : Book) (phaseOf : PhaseOf) (id : String) : Except Err (Option Intersection) :=
  findFirst (fun i => i.includesLight phaseOf id) b.intersections

/-- `DoGetFindIntersection(const DiscreteValueRule::Id&)`, src/maliput/base/intersection_book.cc:136-143. -/
def Book.findByDiscrete (b : Book) (phaseOf : PhaseOf) (id : String) : Except Err (Option Intersection) :=
  findFirst (fun i => i.includesDiscrete phaseOf id) b.intersections

/-- `DoGetFindIntersection(const RightOfWayRule::Id&)`, src/maliput/base/intersection_book.cc:151-158. -/
def Book.findByRow (b : Book) (phaseOf : PhaseOf) (id : String) : Except Err (Option Intersection) :=
  findFirst (fun i => i.includesRow phaseOf id) b.intersections

/-- `DoGetFindIntersection(const InertialPosition&)`, src/maliput/base/intersection_book.cc:80-87. -/
def Book.findByPosition {Pos : Type} (b : Book) (g : IncludeGeometry Pos) (pos : Pos) :
    Except Err (Option Intersection) :=
  findFirst (fun i => i.includesPosition g pos) b.intersections

/-- `std::find_if` over the query region, src/maliput/base/intersection_book.cc:114-117. -/
def rangeMeets (r : LaneSRange) (tol : ℚ) : List LaneSRange → Except Err Bool
  | [] => .ok false
  | x :: xs => do
    let b ← r.intersects x tol
    if b then return true else rangeMeets r tol xs

/-- The loop over the region of an intersection, src/maliput/base/intersection_book.cc:113-122. -/
def regionMeets (region : List LaneSRange) (tol : ℚ) : List LaneSRange → Except Err Bool
  | [] => .ok false
  | r :: rs => do
    let b ← rangeMeets r tol region
    if b then return true else regionMeets region tol rs

/-- The loop over the intersections, src/maliput/base/intersection_book.cc:112-123. -/
def findMeeting (region : List LaneSRange) (tol : ℚ) : List Intersection → Except Err (List Intersection)
  | [] => .ok []
  | i :: is => do
    let b ← regionMeets region tol i.region
    let rest ← findMeeting region tol is
    return if b then i :: rest else rest

/-- `FindIntersections`, src/maliput/base/intersection_book.cc:107-125. -/
def Book.findIntersections (b : Book) (region : List LaneSRange) (tol : ℚ) : Except Err (List Intersection) :=
  findMeeting region tol b.intersections

/-- A history of calls of `AddIntersection` on a new book. -/
def Book.run (ops : List (Option Intersection)) : Book := ops.foldl (fun b i => (b.add i).1) .empty

end Maliput.Intersections
