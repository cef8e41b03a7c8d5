import Mathlib.Data.Fin.VecNotation
import Mathlib.Data.Rat.Defs
import Mathlib.Algebra.Order.Ring.Rat
import Mathlib.Order.WithBot
import Verif.Model.Basic

set_option autoImplicit false

/-!
Model of include/maliput/math/axis_aligned_box.h and src/maliput/math/axis_aligned_box.cc.
Coordinates are rationals extended with -∞ and +∞ (the kd-tree builds boxes with infinite corners).
Not modelled: NaN, rounding, and `position_` (the centre), which no function below reads.
-/
namespace Maliput

/-- A `double` that is not NaN: a rational, -∞ or +∞. -/
abbrev Ext := WithBot (WithTop ℚ)

/-- A finite `double`. -/
def Ext.fin (q : ℚ) : Ext := ((q : WithTop ℚ) : Ext)
/-- `-std::numeric_limits<double>::infinity()`. -/
def Ext.negInf : Ext := ⊥
/-- `std::numeric_limits<double>::infinity()`. -/
def Ext.posInf : Ext := ((⊤ : WithTop ℚ) : Ext)

/-- `e + t` for a finite `t`: infinities absorb. -/
def Ext.add (e : Ext) (t : ℚ) : Ext := WithBot.map (WithTop.map (· + t)) e

/-- `Vector3`, include/maliput/math/vector.h; only component access is used. -/
abbrev Vec3 := Fin 3 → Ext

/-- `class AxisAlignedBox`, include/maliput/math/axis_aligned_box.h:45-95. -/
structure AxisAlignedBox where
  minCorner : Vec3
  maxCorner : Vec3
  tolerance : ℚ

/-- `enum class OverlappingType`, include/maliput/math/overlapping_type.h:50-54 (the three values
`DoOverlaps` returns). -/
inductive OverlappingType
  | disjointed | intersected | contained
  deriving DecidableEq, Repr

namespace AxisAlignedBox

/-- `kTolerance`, include/maliput/math/axis_aligned_box.h:74. -/
def kTolerance : ℚ := 1 / 10 ^ 14

/-- The constructor with a tolerance, src/maliput/math/axis_aligned_box.cc:37-44. -/
def make (minCorner maxCorner : Vec3) (tolerance : ℚ) : Except Err AxisAlignedBox := do
  throwUnless (decide (tolerance ≥ 0))
  throwUnless (decide (minCorner 0 ≤ maxCorner 0))
  throwUnless (decide (minCorner 1 ≤ maxCorner 1))
  throwUnless (decide (minCorner 2 ≤ maxCorner 2))
  return ⟨minCorner, maxCorner, tolerance⟩

/-- The constructor without a tolerance, src/maliput/math/axis_aligned_box.cc:34-35. -/
def makeDefault (minCorner maxCorner : Vec3) : Except Err AxisAlignedBox :=
  make minCorner maxCorner kTolerance

/-- `get_vertices`, src/maliput/math/axis_aligned_box.cc:48-53. -/
def getVertices (b : AxisAlignedBox) : List Vec3 :=
  [![b.minCorner 0, b.minCorner 1, b.minCorner 2], ![b.minCorner 0, b.minCorner 1, b.maxCorner 2],
   ![b.minCorner 0, b.maxCorner 1, b.minCorner 2], ![b.minCorner 0, b.maxCorner 1, b.maxCorner 2],
   ![b.maxCorner 0, b.minCorner 1, b.minCorner 2], ![b.maxCorner 0, b.minCorner 1, b.maxCorner 2],
   ![b.maxCorner 0, b.maxCorner 1, b.minCorner 2], ![b.maxCorner 0, b.maxCorner 1, b.maxCorner 2]]

/-- `DoContains`, src/maliput/math/axis_aligned_box.cc:55-59. -/
def contains (b : AxisAlignedBox) (p : Vec3) : Bool :=
  decide (p 0 ≥ (b.minCorner 0).add (-b.tolerance)) && decide (p 0 ≤ (b.maxCorner 0).add b.tolerance) &&
  decide (p 1 ≥ (b.minCorner 1).add (-b.tolerance)) && decide (p 1 ≤ (b.maxCorner 1).add b.tolerance) &&
  decide (p 2 ≥ (b.minCorner 2).add (-b.tolerance)) && decide (p 2 ≤ (b.maxCorner 2).add b.tolerance)

/-- `IsBoxIntersected`, src/maliput/math/axis_aligned_box.cc:76-81. -/
def isBoxIntersected (b o : AxisAlignedBox) : Bool :=
  !(decide (b.maxCorner 0 < o.minCorner 0) || decide (o.maxCorner 0 < b.minCorner 0) ||
    decide (b.maxCorner 1 < o.minCorner 1) || decide (o.maxCorner 1 < b.minCorner 1) ||
    decide (b.maxCorner 2 < o.minCorner 2) || decide (o.maxCorner 2 < b.minCorner 2))

/-- `IsBoxContained`, src/maliput/math/axis_aligned_box.cc:83-86. -/
def isBoxContained (b o : AxisAlignedBox) : Bool := o.getVertices.all b.contains

/-- `DoOverlaps`, src/maliput/math/axis_aligned_box.cc:61-74.  The other region is an
`AxisAlignedBox`; other kinds of region are rejected by the code and not modelled. -/
def overlaps (b o : AxisAlignedBox) : OverlappingType :=
  if b.isBoxIntersected o then
    if b.isBoxContained o then .contained else .intersected
  else .disjointed

/-- `GetIntersection`, src/maliput/math/axis_aligned_box.cc:88-99. -/
def getIntersection (b o : AxisAlignedBox) : Except Err (Option AxisAlignedBox) :=
  if b.isBoxIntersected o then do
    let r ← make
      ![max (b.minCorner 0) (o.minCorner 0), max (b.minCorner 1) (o.minCorner 1),
        max (b.minCorner 2) (o.minCorner 2)]
      ![min (b.maxCorner 0) (o.maxCorner 0), min (b.maxCorner 1) (o.maxCorner 1),
        min (b.maxCorner 2) (o.maxCorner 2)] b.tolerance
    return some r
  else return none

end AxisAlignedBox
end Maliput
