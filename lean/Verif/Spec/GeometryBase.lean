import Verif.Model.GeometryBase

set_option autoImplicit false

/-! What the road geometry contains. -/
namespace Maliput.Build

/-- Reachable by calls, successful or not. -/
inductive Reach : World → Prop
  | init : Reach .init
  | step {w w' : World} {r : Except Err Unit} (o : Op) : Reach w → o.exec w = some (w', r) → Reach w'

/-- Reachable by successful calls only. -/
inductive Built : World → Prop
  | init : Built .init
  | step {w w' : World} (o : Op) : Built w → o.exec w = some (w', .ok ()) → Built w'

/-- The segment is in a junction of the road geometry. -/
def HasSegment (w : World) (s : Nat) : Prop := ∃ j ∈ w.junctions, s ∈ (w.junction j).segments

/-- The lane is in a segment of a junction of the road geometry. -/
def HasLane (w : World) (l : Nat) : Prop := ∃ s, HasSegment w s ∧ l ∈ (w.segment s).lanes

/-- No two objects of the same kind in the road geometry have the same id. -/
structure UniqueIds (w : World) : Prop where
  lanes : ∀ l m, HasLane w l → HasLane w m → (w.lane l).id = (w.lane m).id → l = m
  segments : ∀ s t, HasSegment w s → HasSegment w t → (w.segment s).id = (w.segment t).id → s = t
  junctions : ∀ i j, i ∈ w.junctions → j ∈ w.junctions → (w.junction i).id = (w.junction j).id → i = j
  branchPoints : ∀ a b, a ∈ w.branchPoints → b ∈ w.branchPoints → w.branchPointId a = w.branchPointId b → a = b

end Maliput.Build
