import Verif.Model.BranchPoint

set_option autoImplicit false

/-! What a consistent lane topology is, in terms of the queries of the API. -/
namespace Maliput.Topo

/-- Histories in which every call succeeds. -/
inductive Built : Topology → Prop
  | init : Built .init
  | step {t t' : Topology} (o : Op) : Built t → o.exec t = (t', .ok ()) → Built t'

/-- The topology as the API shows it is consistent. -/
structure Consistent (t : Topology) : Prop where
  /-- a lane end is in a side of a branch point exactly if that is its branch point -/
  mem_iff : ∀ bp le, (le ∈ (t.bps bp).aSide ∨ le ∈ (t.bps bp).bSide) ↔ getBranchPoint t le = some bp
  /-- no lane end is on both sides -/
  disjoint : ∀ bp le, ¬ (le ∈ (t.bps bp).aSide ∧ le ∈ (t.bps bp).bSide)
  /-- no lane end is listed twice -/
  nodup : ∀ bp, (t.bps bp).aSide.Nodup ∧ (t.bps bp).bSide.Nodup
  /-- the confluent and ongoing sets of an attached lane end are the two sides of its branch point -/
  sides : ∀ le bp, getBranchPoint t le = some bp →
    (getConfluent t le = .ok (t.bps bp).aSide ∧ getOngoing t le = .ok (t.bps bp).bSide) ∨
    (getConfluent t le = .ok (t.bps bp).bSide ∧ getOngoing t le = .ok (t.bps bp).aSide)
  /-- a lane end is confluent with itself -/
  self : ∀ le c, getConfluent t le = .ok c → le ∈ c
  /-- ends that are confluent have the same confluent and the same ongoing set -/
  same : ∀ x y c, getConfluent t x = .ok c → y ∈ c → getConfluent t y = .ok c ∧ getOngoing t y = getOngoing t x
  /-- being ongoing is symmetric -/
  symm : ∀ x y c, getOngoing t x = .ok c → y ∈ c → ∃ c', getOngoing t y = .ok c' ∧ x ∈ c'

/-- The default given by the last successful `SetDefault` of branch point `bp` for `le` in a history. -/
def lastDefault (bp : Nat) (le : LaneEnd) : Topology → List Op → Option LaneEnd → Option LaneEnd
  | _, [], acc => acc
  | t, o :: os, acc =>
    let r := o.exec t
    lastDefault bp le r.1 os
      (match o, r.2 with
       | .setDefault bp' le' d, .ok () => if bp' = bp ∧ le' = le then some d else acc
       | _, _ => acc)

end Maliput.Topo
