import Verif.Model.Quaternion
import Verif.Model.AxisAlignedBox

set_option autoImplicit false

/-!
Model of include/maliput/math/bounding_box.h and src/maliput/math/bounding_box.cc.  Doubles are real numbers.
-/
namespace Maliput.Quat

open Maliput.Linear

/-- `operator[]` of a vector, src/maliput/math/vector.cc:156-160, with an index in range. -/
def vecAt (v : V3) : Fin 3 → ℝ := ![v.x, v.y, v.z]

/-- `operator[]` of a matrix and of its row, src/maliput/math/matrix.cc:196-199, with indices in range. -/
def M3.at (m : M3) (i j : Fin 3) : ℝ := ![![m.xx, m.xy, m.xz], ![m.yx, m.yy, m.yz], ![m.zx, m.zy, m.zz]] i j

/-- `Matrix<N>::determinant`, src/maliput/math/matrix.cc:128-141, for three rows. -/
def M3.determinant (m : M3) : ℝ :=
  m.xx * (m.yy * m.zz - m.yz * m.zy) + m.xy * (-1 * (m.yx * m.zz - m.yz * m.zx)) + m.xz * (m.yx * m.zy - m.yy * m.zx)

/-- `Matrix<N>::adjoint`, src/maliput/math/matrix.cc:164-167, for three rows: the transposed matrix of the cofactors. -/
def M3.adjoint (m : M3) : M3 :=
  M3.transpose
    ⟨m.yy * m.zz - m.yz * m.zy, -1 * (m.yx * m.zz - m.yz * m.zx), m.yx * m.zy - m.yy * m.zx,
     -1 * (m.xy * m.zz - m.xz * m.zy), m.xx * m.zz - m.xz * m.zx, -1 * (m.xx * m.zy - m.xy * m.zx),
     m.xy * m.yz - m.xz * m.yy, -1 * (m.xx * m.yz - m.xz * m.yx), m.xx * m.yy - m.xy * m.yx⟩

open Classical in
/-- `Matrix<N>::inverse`, src/maliput/math/matrix.cc:169-174, for three rows. -/
noncomputable def M3.inverse (m : M3) : Except Err M3 :=
  let d := m.determinant
  if |d| < 1 / 10 ^ 15 then .error .throws else .ok (m.adjoint.scale (1 / d))

/-- `class BoundingBox`, include/maliput/math/bounding_box.h:44-99.  `half` is `xyz_2_`. -/
structure BoundingBox where
  position : V3
  boxSize : V3
  orientation : RollPitchYaw
  tolerance : ℝ
  half : V3

namespace BoundingBox

open Classical in
/-- The constructor, src/maliput/math/bounding_box.cc:35-46. -/
noncomputable def make (position boxSize : V3) (orientation : RollPitchYaw) (tolerance : ℝ) : Except Err BoundingBox := do
  throwUnless (decide (tolerance ≥ 0))
  throwUnless (decide (boxSize.x ≥ 0))
  throwUnless (decide (boxSize.y ≥ 0))
  throwUnless (decide (boxSize.z ≥ 0))
  return ⟨position, boxSize, orientation, tolerance, ⟨boxSize.x / 2, boxSize.y / 2, boxSize.z / 2⟩⟩

/-- `vertices_box_frame`, src/maliput/math/bounding_box.cc:51-56. -/
def verticesBoxFrame (h : V3) : List V3 :=
  [⟨h.x, h.y, h.z⟩, ⟨-h.x, h.y, h.z⟩, ⟨h.x, -h.y, h.z⟩, ⟨h.x, h.y, -h.z⟩,
   ⟨-h.x, -h.y, h.z⟩, ⟨h.x, -h.y, -h.z⟩, ⟨-h.x, h.y, -h.z⟩, ⟨-h.x, -h.y, -h.z⟩]

/-- `get_vertices`, src/maliput/math/bounding_box.cc:50-62. -/
noncomputable def getVertices (b : BoundingBox) : Except Err (List V3) :=
  (verticesBoxFrame b.half).mapM fun vertex => do
    let inverse ← b.orientation.toMatrix.inverse
    return (inverse.mulVec vertex).add b.position

open Classical in
/-- `DoContains`, src/maliput/math/bounding_box.cc:68-73. -/
noncomputable def contains (b : BoundingBox) (position : V3) : Bool :=
  let p := b.orientation.toMatrix.mulVec (position.sub b.position)
  decide (p.x ≤ b.half.x + b.tolerance) && decide (p.x ≥ -b.half.x - b.tolerance) &&
  decide (p.y ≤ b.half.y + b.tolerance) && decide (p.y ≥ -b.half.y - b.tolerance) &&
  decide (p.z ≤ b.half.z + b.tolerance) && decide (p.z ≥ -b.half.z - b.tolerance)

/-- `IsBoxContained`, src/maliput/math/bounding_box.cc:87-90. -/
noncomputable def isBoxContained (b other : BoundingBox) : Except Err Bool := do
  let vertices ← other.getVertices
  return vertices.all b.contains

/-- `kEpsilon`, src/maliput/math/bounding_box.cc:105. -/
noncomputable def kEpsilon : ℝ := 1 / 1000000

/-- `abs_r`, src/maliput/math/bounding_box.cc:106-111. -/
noncomputable def absR (r : M3) (i j : Fin 3) : ℝ := |r.at i j| + kEpsilon

/-- The first category separates the boxes along the axis `i`, src/maliput/math/bounding_box.cc:116-117. -/
noncomputable def separates1 (b other : BoundingBox) (t : V3) (r : M3) (i : Fin 3) : Prop :=
  |vecAt t i| > vecAt b.half i + (other.half.x * absR r 0 i + other.half.y * absR r 1 i + other.half.z * absR r 2 i)

/-- The second category separates the boxes, src/maliput/math/bounding_box.cc:126-128. -/
noncomputable def separates2 (b other : BoundingBox) (t : V3) (r : M3) (i : Fin 3) : Prop :=
  |t.x * r.at 0 i + t.y * r.at 1 i + t.z * r.at 2 i| >
    vecAt other.half i + (b.half.x * absR r 0 i + b.half.y * absR r 1 i + b.half.z * absR r 2 i)

/-- The third category separates the boxes, src/maliput/math/bounding_box.cc:135-149.  `i1`, `i2`, `j1` and `j2` are what
the loops have in them for `i` and `j`: the next index and the one after, cyclically. -/
noncomputable def separates3 (b other : BoundingBox) (t : V3) (r : M3) (i j : Fin 3) : Prop :=
  let i1 := i + 1; let i2 := i1 + 1
  let j1 := j + 1; let j2 := j1 + 1
  |vecAt t i2 * r.at i1 j - vecAt t i1 * r.at i2 j| >
    vecAt b.half i1 * absR r i2 j + vecAt b.half i2 * absR r i1 j +
      vecAt other.half j1 * absR r i j2 + vecAt other.half j2 * absR r i j1

open Classical in
/-- `IsBoxIntersected`, src/maliput/math/bounding_box.cc:92-152. -/
noncomputable def isBoxIntersected (b other : BoundingBox) : Except Err Bool := do
  let t := other.position.sub b.position
  let inverse ← b.orientation.toMatrix.inverse
  let r := inverse.mul other.orientation.toMatrix
  if ∃ i, separates1 b other t r i then return false
  if ∃ i, separates2 b other t r i then return false
  if ∃ i j, separates3 b other t r i j then return false
  return true

/-- `DoOverlaps`, src/maliput/math/bounding_box.cc:75-85.  The other region is a `BoundingBox`; other kinds of region are
rejected by the code and not modelled. -/
noncomputable def overlaps (b other : BoundingBox) : Except Err OverlappingType := do
  if ← isBoxContained b other then return .contained
  if ← isBoxIntersected b other then return .intersected
  return .disjointed

end BoundingBox
end Maliput.Quat
