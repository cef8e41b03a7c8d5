import Mathlib.Logic.Relation
import Verif.Model.SegmentAnalysis
import Verif.Spec.BranchPoint

set_option autoImplicit false

/-! Specification of the connected components of segments. -/
namespace Maliput.SegmentAnalysis.Spec

open Maliput.Topo

/-- A lane end of segment `x` is confluent with an end of a lane of segment `y`. -/
def Confluent (net : Net) (x y : Nat) : Prop :=
  ∃ lane w c le, some lane ∈ net.lanes x ∧ net.confluent ⟨lane, w⟩ = .ok (some c) ∧ le ∈ c ∧ net.segment le.lane = some y

/-- A road geometry as the geometry base builds it from the topology `t`: lanes know their segment, segments are in the
road geometry, and both ends of each lane have been added to a branch point. -/
structure Complete (net : Net) (t : Topology) : Prop where
  built : Built t
  confluent : ∀ le, net.confluent le = (getConfluent t le).map some
  notNull : ∀ x, none ∉ net.lanes x
  segment : ∀ lane x, net.segment lane = some x ↔ some lane ∈ net.lanes x
  listed : ∀ lane x, net.segment lane = some x → x ∈ net.segments
  attached : ∀ lane x w, net.segment lane = some x → getBranchPoint t ⟨lane, w⟩ ≠ none

end Maliput.SegmentAnalysis.Spec
