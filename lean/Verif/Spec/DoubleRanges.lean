import Verif.Model.DoubleRanges
import Verif.Spec.Double

set_option autoImplicit false

/-! Ranges as sets of numbers. -/
namespace Maliput.Dbl.Spec

/-- The ranges a program can have: made by a constructor or changed by a setter, accepted or not. -/
inductive ReachableSRange : SRange → Prop
  | default : ReachableSRange {}
  | make {s0 s1 : Double} {r : SRange} : SRange.make s0 s1 = .ok r → ReachableSRange r
  | setS0 {r : SRange} (s0 : Double) : ReachableSRange r → ReachableSRange (r.setS0 s0).1
  | setS1 {r : SRange} (s1 : Double) : ReachableSRange r → ReachableSRange (r.setS1 s1).1

/-- The bounds a program can have. -/
inductive ReachableBounds : Bounds → Prop
  | default : ReachableBounds {}
  | make {min max : Double} {b : Bounds} : Bounds.make min max = .ok b → ReachableBounds b
  | setMin {b : Bounds} (min : Double) : ReachableBounds b → ReachableBounds (b.setMin min).1
  | setMax {b : Bounds} (max : Double) : ReachableBounds b → ReachableBounds (b.setMax max).1

/-- `x` is between `a` and `b`, in whichever order they are. -/
def Between (a b x : ℚ) : Prop := min a b ≤ x ∧ x ≤ max a b

end Maliput.Dbl.Spec
