import Verif.Model.Waypoints

set_option autoImplicit false

/-! Specification of positions along a route. -/
namespace Maliput.Waypoints.Spec

/-- After the path length `x` along the ranges one is on the lane `lane` at `s`. -/
inductive At : List LaneSRange → ℚ → String → ℚ → Prop
  | here (r : LaneSRange) (rs : List LaneSRange) (x : ℚ) (h0 : 0 ≤ x) (h1 : x ≤ |r.sRange.s1 - r.sRange.s0|) :
      At (r :: rs) x r.laneId (if r.sRange.s0 ≤ r.sRange.s1 then r.sRange.s0 + x else r.sRange.s0 - x)
  | later (r : LaneSRange) {rs : List LaneSRange} {x : ℚ} {lane : String} {s : ℚ} (h : At rs x lane s) :
      At (r :: rs) (|r.sRange.s1 - r.sRange.s0| + x) lane s

/-- The length of a route. -/
def total (rs : List LaneSRange) : ℚ := (rs.map fun r => |r.sRange.s1 - r.sRange.s0|).sum

/-- Each range is travelled in the direction of increasing `s`. -/
def Forward (rs : List LaneSRange) : Prop := ∀ r ∈ rs, r.sRange.s0 ≤ r.sRange.s1

end Maliput.Waypoints.Spec
