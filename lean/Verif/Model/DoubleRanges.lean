import Mathlib.Data.Fin.VecNotation
import Verif.Model.Double
import Verif.Model.Map

set_option autoImplicit false

/-!
# Ranges of doubles

The functions of other models that only compare, add and subtract, with the arithmetic of `double`: NaN, infinities and rounding
included.
-/
namespace Maliput.Dbl

/-- `class SRange`, include/maliput/api/regions.h:46-127: zeros unless constructed with other values. -/
structure SRange where
  s0 : Double := 0
  s1 : Double := 0
deriving DecidableEq

namespace SRange

/-- `SRange::SRange`, src/maliput/api/regions.cc:66-69. -/
def make (s0 s1 : Double) : Except Err SRange := do
  throwUnless (ge s0 0)
  throwUnless (ge s1 0)
  return ⟨s0, s1⟩

/-- `SRange::set_s0`, src/maliput/api/regions.cc:71-74. -/
def setS0 (r : SRange) (s0 : Double) : Outcome SRange :=
  match throwUnless (ge s0 0) with
  | .ok () => ({ r with s0 := s0 }, .ok ())
  | .error e => (r, .error e)

/-- `SRange::set_s1`, src/maliput/api/regions.cc:76-79. -/
def setS1 (r : SRange) (s1 : Double) : Outcome SRange :=
  match throwUnless (ge s1 0) with
  | .ok () => ({ r with s1 := s1 }, .ok ())
  | .error e => (r, .error e)

/-- `size`, include/maliput/api/regions.h:86. -/
def size (r : SRange) : Double := fabs (sub r.s1 r.s0)

/-- `WithS`, include/maliput/api/regions.h:91. -/
def withS (r : SRange) : Bool := gt r.s1 r.s0

/-- `SRange::Intersects`, src/maliput/api/regions.cc:81-90. -/
def intersects (r o : SRange) (tol : Double) : Except Err Bool := do
  throwUnless (ge (stdMin r.s0 r.s1) 0 && ge (stdMin o.s0 o.s1) 0)
  if lt tol 0 then
    throwUnless (ge (half (stdMin r.size o.size)) (fabs tol))
  let wider ← make (stdMax (sub (stdMin r.s0 r.s1) tol) 0) (add (stdMax r.s0 r.s1) tol)
  return !(lt (stdMax o.s0 o.s1) wider.s0 || gt (stdMin o.s0 o.s1) wider.s1)

/-- `SRange::Contains`, src/maliput/api/regions.cc:92-103. -/
def contains (r o : SRange) (tol : Double) : Except Err Bool := do
  throwUnless (ge (stdMin r.s0 r.s1) 0 && ge (stdMin o.s0 o.s1) 0)
  if lt tol 0 then
    throwUnless (ge (half (stdMin r.size o.size)) (fabs tol))
  let minRange := stdMax (if r.withS then sub r.s0 tol else sub r.s1 tol) 0
  let maxRange := if r.withS then add r.s1 tol else add r.s0 tol
  let s1In := le o.s1 maxRange && ge o.s1 minRange
  let s0In := le o.s0 maxRange && ge o.s0 minRange
  return s1In && s0In

end SRange

/-- `class RBounds`, include/maliput/api/lane_data.h:354-392, and `class HBounds`, include/maliput/api/lane_data.h:398-436, which
have the same code. -/
structure Bounds where
  min : Double := 0
  max : Double := 0
deriving DecidableEq

namespace Bounds

/-- `RBounds`, include/maliput/api/lane_data.h:364-367. -/
def make (min max : Double) : Except Err Bounds := do
  throwUnless (le min 0)
  throwUnless (ge max 0)
  return ⟨min, max⟩

/-- `set_min`, include/maliput/api/lane_data.h:375-378. -/
def setMin (b : Bounds) (min : Double) : Outcome Bounds :=
  match throwUnless (le min 0) with
  | .ok () => ({ b with min := min }, .ok ())
  | .error e => (b, .error e)

/-- `set_max`, include/maliput/api/lane_data.h:383-386. -/
def setMax (b : Bounds) (max : Double) : Outcome Bounds :=
  match throwUnless (ge max 0) with
  | .ok () => ({ b with max := max }, .ok ())
  | .error e => (b, .error e)

end Bounds

/-- `saturate`, src/maliput/math/saturate.cc:37-42. -/
def saturate (x min max : Double) : Except Err Double := do
  throwUnless (le min max)
  if lt x min then return min
  if gt x max then return max
  return x

/-- `SpeedLimitRule`, include/maliput/api/rules/speed_limit_rule.h:75-80: the limits. -/
def speedLimits (min max : Double) : Except Err (Double × Double) := do
  throwUnless (ge min 0)
  throwUnless (ge max 0)
  throwUnless (le min max)
  return (min, max)

/-- `IsWithinRange`, src/maliput/api/lane.cc:41-43. -/
def isWithinRange (x min max tolerance : Double) : Bool := ge x (sub min tolerance) && le x (add max tolerance)

/-- `Lane::Contains`, src/maliput/api/lane.cc:138-152, once the lane has answered. -/
def laneContains (length : Double) (r h : Bounds) (tolerance s pr ph : Double) : Bool :=
  isWithinRange s 0 length tolerance && isWithinRange pr r.min r.max tolerance && isWithinRange ph h.min h.max tolerance

/-- `class AxisAlignedBox`, include/maliput/math/axis_aligned_box.h:91-94, by coordinates. -/
structure Box where
  min : Fin 3 → Double
  max : Fin 3 → Double
  tolerance : Double
  position : Fin 3 → Double

namespace Box

/-- `AxisAlignedBox::AxisAlignedBox`, src/maliput/math/axis_aligned_box.cc:36-44. -/
def make (min max : Fin 3 → Double) (tolerance : Double) : Except Err Box := do
  throwUnless (ge tolerance 0)
  throwUnless (le (min 0) (max 0))
  throwUnless (le (min 1) (max 1))
  throwUnless (le (min 2) (max 2))
  return ⟨min, max, tolerance, fun i => add (mul (.fin (1 / 2)) (min i)) (mul (.fin (1 / 2)) (max i))⟩

/-- `AxisAlignedBox::get_vertices`, src/maliput/math/axis_aligned_box.cc:48-53. -/
def vertices (b : Box) : List (Fin 3 → Double) :=
  [![b.min 0, b.min 1, b.min 2], ![b.min 0, b.min 1, b.max 2], ![b.min 0, b.max 1, b.min 2], ![b.min 0, b.max 1, b.max 2],
    ![b.max 0, b.min 1, b.min 2], ![b.max 0, b.min 1, b.max 2], ![b.max 0, b.max 1, b.min 2], ![b.max 0, b.max 1, b.max 2]]

/-- `AxisAlignedBox::DoContains`, src/maliput/math/axis_aligned_box.cc:55-59. -/
def contains (b : Box) (p : Fin 3 → Double) : Bool :=
  ge (p 0) (sub (b.min 0) b.tolerance) && le (p 0) (add (b.max 0) b.tolerance) &&
  (ge (p 1) (sub (b.min 1) b.tolerance) && le (p 1) (add (b.max 1) b.tolerance)) &&
  (ge (p 2) (sub (b.min 2) b.tolerance) && le (p 2) (add (b.max 2) b.tolerance))

/-- `AxisAlignedBox::IsBoxIntersected`, src/maliput/math/axis_aligned_box.cc:76-81. -/
def intersected (b o : Box) : Bool :=
  !(lt (b.max 0) (o.min 0) || lt (o.max 0) (b.min 0) || lt (b.max 1) (o.min 1) || lt (o.max 1) (b.min 1) ||
    lt (b.max 2) (o.min 2) || lt (o.max 2) (b.min 2))

/-- `AxisAlignedBox::IsBoxContained`, src/maliput/math/axis_aligned_box.cc:83-86. -/
def contained (b o : Box) : Bool := o.vertices.all b.contains

end Box

/-- `class RangeValidator`, include/maliput/common/range_validator.h:105-108. -/
structure RangeValidator where
  min : Double
  max : Double
  tolerance : Double
  epsilon : Double
deriving DecidableEq

namespace RangeValidator

/-- `RangeValidator::RangeValidator`, src/maliput/common/range_validator.cc:49-66. -/
def make (min max tolerance epsilon : Double) (relative : Bool) : Except Err RangeValidator := do
  throwUnless (gt tolerance 0)
  let eps := if relative then mul (sub max min) epsilon else epsilon
  throwUnless (ge eps 0)
  throwUnless (le eps tolerance)
  throwUnless (le (add min eps) max)
  throwUnless (le min (sub max eps))
  return ⟨min, max, tolerance, eps⟩

/-- `std::clamp`: undefined if the bounds are in the wrong order. -/
def clamp (v lo hi : Double) : Except Err Double :=
  if lt hi lo then .error .ub
  else if lt v lo then .ok lo
  else if lt hi v then .ok hi
  else .ok v

/-- `RangeValidator::operator()`, src/maliput/common/range_validator.cc:68-71. -/
def apply (v : RangeValidator) (s : Double) : Except Err Double := do
  throwUnless (ge s (sub v.min v.tolerance))
  throwUnless (le s (add v.max v.tolerance))
  clamp s (add v.min v.epsilon) (sub v.max v.epsilon)

end RangeValidator
end Maliput.Dbl
