import Mathlib.Analysis.SpecialFunctions.Trigonometric.Inverse
import Mathlib.Analysis.SpecialFunctions.Complex.Arg
import Verif.Model.DouglasPeucker

set_option autoImplicit false

/-!
Model of maliput/math/quaternion, maliput/math/roll_pitch_yaw and of `api::Rotation`.  Doubles are real numbers; a
quaternion with NaN in it is `none`.
-/
namespace Maliput.Quat

open Maliput.Linear

/-- `Vector3::cross`, src/maliput/math/vector.cc:255-257. -/
def cross (a v : V3) : V3 := ⟨a.y * v.z - a.z * v.y, a.z * v.x - a.x * v.z, a.x * v.y - a.y * v.x⟩

/-- `Matrix3`: its nine entries, include/maliput/math/matrix.h. -/
@[ext] structure M3 where
  xx : ℝ
  xy : ℝ
  xz : ℝ
  yx : ℝ
  yy : ℝ
  yz : ℝ
  zx : ℝ
  zy : ℝ
  zz : ℝ

/-- `operator*` of a matrix and a vector, src/maliput/math/matrix.cc:275-283, for three rows. -/
def M3.mulVec (m : M3) (v : V3) : V3 :=
  ⟨m.xx * v.x + m.xy * v.y + m.xz * v.z, m.yx * v.x + m.yy * v.y + m.yz * v.z, m.zx * v.x + m.zy * v.y + m.zz * v.z⟩

/-- `Matrix<N>::operator*`, src/maliput/math/matrix.cc:231-240, for three rows. -/
def M3.mul (a b : M3) : M3 :=
  ⟨a.xx * b.xx + a.xy * b.yx + a.xz * b.zx, a.xx * b.xy + a.xy * b.yy + a.xz * b.zy, a.xx * b.xz + a.xy * b.yz + a.xz * b.zz,
   a.yx * b.xx + a.yy * b.yx + a.yz * b.zx, a.yx * b.xy + a.yy * b.yy + a.yz * b.zy, a.yx * b.xz + a.yy * b.yz + a.yz * b.zz,
   a.zx * b.xx + a.zy * b.yx + a.zz * b.zx, a.zx * b.xy + a.zy * b.yy + a.zz * b.zy, a.zx * b.xz + a.zy * b.yz + a.zz * b.zz⟩

/-- `Matrix<N>::transpose`, src/maliput/math/matrix.cc:92-99, for three rows. -/
def M3.transpose (m : M3) : M3 := ⟨m.xx, m.yx, m.zx, m.xy, m.yy, m.zy, m.xz, m.yz, m.zz⟩

/-- `Matrix<N>::operator+`, src/maliput/math/matrix.cc:217-222, for three rows. -/
def M3.add (a b : M3) : M3 :=
  ⟨a.xx + b.xx, a.xy + b.xy, a.xz + b.xz, a.yx + b.yx, a.yy + b.yy, a.yz + b.yz, a.zx + b.zx, a.zy + b.zy, a.zz + b.zz⟩

/-- `operator*` with a number, src/maliput/math/matrix.cc:249-255, for three rows. -/
def M3.scale (a : M3) (k : ℝ) : M3 :=
  ⟨a.xx * k, a.xy * k, a.xz * k, a.yx * k, a.yy * k, a.yz * k, a.zx * k, a.zy * k, a.zz * k⟩

/-- `Quaternion`, include/maliput/math/quaternion.h:606-814. -/
@[ext] structure Quaternion where
  w : ℝ
  x : ℝ
  y : ℝ
  z : ℝ

namespace Quaternion

/-- `kTolerance`, include/maliput/math/quaternion.h:608. -/
noncomputable def tolerance : ℝ := 1 / 10 ^ 15

/-- `Quaternion::Identity`, src/maliput/math/quaternion.cc:649. -/
def identity : Quaternion := ⟨1, 0, 0, 0⟩

/-- `Quaternion::vec`, include/maliput/math/quaternion.h:660. -/
def vec (q : Quaternion) : V3 := ⟨q.x, q.y, q.z⟩

/-- `Quaternion::squared_norm`, include/maliput/math/quaternion.h:686. -/
def squaredNorm (q : Quaternion) : ℝ := q.x * q.x + q.y * q.y + q.z * q.z + q.w * q.w

/-- `Quaternion::norm`, include/maliput/math/quaternion.h:689. -/
noncomputable def norm (q : Quaternion) : ℝ := Real.sqrt (q.x * q.x + q.y * q.y + q.z * q.z + q.w * q.w)

open Classical in
/-- `Quaternion::normalize` and `Quaternion::normalized`, include/maliput/math/quaternion.h:695-712. -/
noncomputable def normalized (q : Quaternion) : Quaternion :=
  if q.norm < tolerance then identity else ⟨q.w / q.norm, q.x / q.norm, q.y / q.norm, q.z / q.norm⟩

/-- `Quaternion::dot`, include/maliput/math/quaternion.h:718. -/
def dot (q p : Quaternion) : ℝ := q.w * p.w + q.x * p.x + q.y * p.y + q.z * p.z

/-- `Quaternion::conjugate`, include/maliput/math/quaternion.h:780. -/
def conjugate (q : Quaternion) : Quaternion := ⟨q.w, -q.x, -q.y, -q.z⟩

open Classical in
/-- The constructor from an angle and an axis, src/maliput/math/quaternion.cc:600-618. -/
noncomputable def ofAngleAxis (angle : ℝ) (axis : V3) : Quaternion :=
  normalized (if axis.norm < tolerance then ⟨1, 0, 0, 0⟩
    else
      let l := Real.sin (angle * (1 / 2)) / axis.norm
      ⟨Real.cos (angle * (1 / 2)), axis.x * l, axis.y * l, axis.z * l⟩)

open Classical in
/-- The constructor from a rotation matrix, src/maliput/math/quaternion.cc:620-647.  A square root of a negative number
and a division by zero, which give NaN, are zero here; neither happens for a rotation matrix. -/
noncomputable def ofMatrix (r : M3) : Quaternion :=
  let trace := r.xx + r.yy + r.zz
  if trace > tolerance then
    let w := Real.sqrt (1 + trace) / 2
    let s := 1 / (4 * w)
    ⟨w, (r.zy - r.yz) * s, (r.xz - r.zx) * s, (r.yx - r.xy) * s⟩
  else if r.xx > r.yy ∧ r.xx > r.zz then
    let x := Real.sqrt (1 + r.xx - r.yy - r.zz) / 2
    let s := 1 / (4 * x)
    ⟨(r.zy - r.yz) * s, x, (r.yx + r.xy) * s, (r.xz + r.zx) * s⟩
  else if r.yy > r.zz then
    let y := Real.sqrt (1 - r.xx + r.yy - r.zz) / 2
    let s := 1 / (4 * y)
    ⟨(r.xz - r.zx) * s, (r.xy + r.yx) * s, y, (r.yz + r.zy) * s⟩
  else
    let z := Real.sqrt (1 - r.xx - r.yy + r.zz) / 2
    let s := 1 / (4 * z)
    ⟨(r.yx - r.xy) * s, (r.xz + r.zx) * s, (r.yz + r.zy) * s, z⟩

/-- `Quaternion::operator*`, src/maliput/math/quaternion.cc:742-745. -/
def mul (p q : Quaternion) : Quaternion :=
  ⟨p.w * q.w - p.x * q.x - p.y * q.y - p.z * q.z, p.w * q.x + p.x * q.w + p.y * q.z - p.z * q.y,
   p.w * q.y + p.y * q.w + p.z * q.x - p.x * q.z, p.w * q.z + p.z * q.w + p.x * q.y - p.y * q.x⟩

/-- `std::atan2` for real numbers. -/
noncomputable def atan2 (y x : ℝ) : ℝ := Complex.arg ⟨x, y⟩

/-- `Quaternion::AngularDistance`, src/maliput/math/quaternion.cc:657-660. -/
noncomputable def angularDistance (q other : Quaternion) : ℝ :=
  let d := q.mul other.conjugate
  2 * atan2 d.vec.norm |d.w|

/-- `Quaternion::ToRotationMatrix`, src/maliput/math/quaternion.cc:662-689. -/
noncomputable def toRotationMatrix (q : Quaternion) : M3 :=
  let n := q.normalized
  let tx := 2 * n.x
  let ty := 2 * n.y
  let tz := 2 * n.z
  let twx := tx * n.w
  let twy := ty * n.w
  let twz := tz * n.w
  let txx := tx * n.x
  let txy := ty * n.x
  let txz := tz * n.x
  let tyy := ty * n.y
  let tyz := tz * n.y
  let tzz := tz * n.z
  ⟨1 - (tyy + tzz), txy - twz, txz + twy, txy + twz, 1 - (txx + tzz), tyz - twx, txz - twy, tyz + twx, 1 - (txx + tyy)⟩

open Classical in
/-- The unit vector `SetFromTwoVectors` multiplies an opposite vector with, src/maliput/math/quaternion.cc:710-726. -/
noncomputable def otherAxis (a : V3) : V3 :=
  if |a.x| < |a.y| then (if |a.x| < |a.z| then ⟨1, 0, 0⟩ else ⟨0, 0, 1⟩)
  else (if a.y < a.z then ⟨0, 1, 0⟩ else ⟨0, 0, 1⟩)

open Classical in
/-- `Quaternion::SetFromTwoVectors`, src/maliput/math/quaternion.cc:691-740, and `Quaternion::FromTwoVectors`, lines
651-655; `none` if there is NaN in the result.  A division by zero is NaN, and the comparison with it is false. -/
noncomputable def fromTwoVectors (a b : V3) : Option Quaternion :=
  let cosTheta := a.dot b
  let k := Real.sqrt (a.norm * a.norm * b.norm * b.norm)
  if k ≠ 0 ∧ |cosTheta / k + 1| < tolerance then
    (cross a (otherAxis a)).normalized.map fun axis => ⟨0, axis.x, axis.y, axis.z⟩
  else
    let axis := cross a b
    some (normalized ⟨cosTheta + k, axis.x, axis.y, axis.z⟩)

open Classical in
/-- `Quaternion::Inverse`, src/maliput/math/quaternion.cc:756-759. -/
noncomputable def inverse (q : Quaternion) : Quaternion :=
  let n := q.squaredNorm
  if n > tolerance then ⟨q.conjugate.w / n, q.conjugate.x / n, q.conjugate.y / n, q.conjugate.z / n⟩ else ⟨0, 0, 0, 0⟩

open Classical in
/-- `Quaternion::Slerp`, src/maliput/math/quaternion.cc:761-782. -/
noncomputable def slerp (q : Quaternion) (t : ℝ) (other : Quaternion) : Quaternion :=
  let d := q.dot other
  let theta := Real.arccos |d|
  let scale0 := if |d| < 1 - tolerance then Real.sin ((1 - t) * theta) / Real.sin theta else 1 - t
  let scale1 := if |d| < 1 - tolerance then Real.sin (t * theta) / Real.sin theta else t
  let scale1' := if d < 0 then -scale1 else scale1
  ⟨scale0 * q.w + scale1' * other.w, scale0 * q.x + scale1' * other.x, scale0 * q.y + scale1' * other.y,
   scale0 * q.z + scale1' * other.z⟩

/-- `Quaternion::TransformVector`, src/maliput/math/quaternion.cc:793-797. -/
def transformVector (q : Quaternion) (v : V3) : V3 :=
  let uv := cross q.vec v
  let uv2 := uv.add uv
  (v.add (V3.smul q.w uv2)).add (cross q.vec uv2)

end Quaternion

/-- `RollPitchYaw`, include/maliput/math/roll_pitch_yaw.h. -/
@[ext] structure RollPitchYaw where
  roll : ℝ
  pitch : ℝ
  yaw : ℝ

namespace RollPitchYaw

open Real (sin cos)

/-- `RollPitchYaw::ToMatrix`, src/maliput/math/roll_pitch_yaw.cc:151-170. -/
noncomputable def toMatrix (a : RollPitchYaw) : M3 :=
  let c0 := cos a.roll; let c1 := cos a.pitch; let c2 := cos a.yaw
  let s0 := sin a.roll; let s1 := sin a.pitch; let s2 := sin a.yaw
  let c2_s1 := c2 * s1; let s2_s1 := s2 * s1
  ⟨c2 * c1, c2_s1 * s0 - s2 * c0, c2_s1 * c0 + s2 * s0,
   s2 * c1, s2_s1 * s0 + c2 * c0, s2_s1 * c0 - c2 * s0,
   -s1, c1 * s0, c1 * c0⟩

/-- `RollPitchYaw::ToQuaternion`, src/maliput/math/roll_pitch_yaw.cc:172-188. -/
noncomputable def toQuaternion (a : RollPitchYaw) : Quaternion :=
  let c0 := cos (a.roll / 2); let s0 := sin (a.roll / 2)
  let c1 := cos (a.pitch / 2); let s1 := sin (a.pitch / 2)
  let c2 := cos (a.yaw / 2); let s2 := sin (a.yaw / 2)
  let c1_c2 := c1 * c2; let s1_c2 := s1 * c2
  let s1_s2 := s1 * s2; let c1_s2 := c1 * s2
  ⟨c0 * c1_c2 + s0 * s1_s2, s0 * c1_c2 - c0 * s1_s2, c0 * s1_c2 + s0 * c1_s2, c0 * c1_s2 - s0 * s1_c2⟩

open Classical in
/-- The adjustment of an angle to be between `-π` and `π`, src/maliput/math/roll_pitch_yaw.cc:138-142. -/
noncomputable def wrap (x : ℝ) : ℝ :=
  let x1 := if x > Real.pi then x - 2 * Real.pi else x
  if x1 < -Real.pi then x1 + 2 * Real.pi else x1

open Classical in
/-- An angle of src/maliput/math/roll_pitch_yaw.cc:130-134: zero if both arguments are at most the epsilon of doubles. -/
noncomputable def halfAngle (y x : ℝ) : ℝ :=
  if |y| ≤ 1 / 2 ^ 52 ∧ |x| ≤ 1 / 2 ^ 52 then 0 else Quaternion.atan2 y x

/-- `RollPitchYaw::SetFromQuaternion`, src/maliput/math/roll_pitch_yaw.cc:95-147. -/
noncomputable def ofQuaternion (quaternion : Quaternion) : RollPitchYaw :=
  let r := quaternion.toRotationMatrix
  let q := quaternion.normalized
  let rsum := Real.sqrt ((r.zz * r.zz + r.zy * r.zy + r.yx * r.yx + r.xx * r.xx) / 2)
  let pitch := Quaternion.atan2 (-r.zx) rsum
  let zA := halfAngle (q.x + q.z) (q.w - q.y)
  let zB := halfAngle (q.z - q.x) (q.w + q.y)
  ⟨wrap (zA - zB), pitch, wrap (zA + zB)⟩

/-- `RollPitchYaw::CalcRotationMatrixDrDpDy`, src/maliput/math/roll_pitch_yaw.cc:206-231: the matrix for the roll. -/
noncomputable def dRoll (a : RollPitchYaw) : M3 :=
  let c0 := cos a.roll; let c1 := cos a.pitch; let c2 := cos a.yaw
  let s0 := sin a.roll; let s1 := sin a.pitch; let s2 := sin a.yaw
  let c2_s1 := c2 * s1; let s2_s1 := s2 * s1; let s2_s0 := s2 * s0; let s2_c0 := s2 * c0
  let c2_s0 := c2 * s0; let c2_c0 := c2 * c0
  ⟨0, c2_s1 * c0 + s2_s0, -c2_s1 * s0 + s2_c0, 0, s2_s1 * c0 - c2_s0, -s2_s1 * s0 - c2_c0, 0, c1 * c0, -c1 * s0⟩

/-- `RollPitchYaw::CalcRotationMatrixDrDpDy`, src/maliput/math/roll_pitch_yaw.cc:206-231: the matrix for the pitch. -/
noncomputable def dPitch (a : RollPitchYaw) : M3 :=
  let c0 := cos a.roll; let c1 := cos a.pitch; let c2 := cos a.yaw
  let s0 := sin a.roll; let s1 := sin a.pitch; let s2 := sin a.yaw
  let c2_s1 := c2 * s1; let s2_s1 := s2 * s1
  let c2_c1 := c2 * c1; let s2_c1 := s2 * c1
  ⟨-c2_s1, c2_c1 * s0, c2_c1 * c0, -s2_s1, s2_c1 * s0, s2_c1 * c0, -c1, -s1 * s0, -s1 * c0⟩

/-- `RollPitchYaw::CalcRotationMatrixDrDpDy`, src/maliput/math/roll_pitch_yaw.cc:206-231: the matrix for the yaw. -/
noncomputable def dYaw (a : RollPitchYaw) : M3 :=
  let c0 := cos a.roll; let c1 := cos a.pitch; let c2 := cos a.yaw
  let s0 := sin a.roll; let s1 := sin a.pitch; let s2 := sin a.yaw
  let c2_s1 := c2 * s1; let s2_s1 := s2 * s1; let s2_s0 := s2 * s0; let s2_c0 := s2 * c0
  let c2_c1 := c2 * c1; let s2_c1 := s2 * c1; let c2_s0 := c2 * s0; let c2_c0 := c2 * c0
  ⟨-s2_c1, -s2_s1 * s0 - c2_c0, -s2_s1 * c0 + c2_s0, c2_c1, c2_s1 * s0 - s2_c0, c2_s1 * c0 + s2_s0, 0, 0, 0⟩

/-- `RollPitchYaw::CalcRotationMatrixDt`, src/maliput/math/roll_pitch_yaw.cc:190-204. -/
noncomputable def rotationMatrixDt (a : RollPitchYaw) (rpyDt : V3) : M3 :=
  ((a.dRoll.scale rpyDt.x).add (a.dPitch.scale rpyDt.y)).add (a.dYaw.scale rpyDt.z)

end RollPitchYaw

/-- `api::Rotation`, include/maliput/api/lane_data.h:159-228. -/
structure Rotation where
  quaternion : Quaternion

namespace Rotation

/-- The default constructor, include/maliput/api/lane_data.h:164. -/
def new : Rotation := ⟨Quaternion.identity⟩

/-- `Rotation::FromQuat` and `Rotation::set_quat`, include/maliput/api/lane_data.h:168 and 186. -/
noncomputable def fromQuat (q : Quaternion) : Rotation := ⟨q.normalized⟩

/-- `Rotation::FromRpy`, include/maliput/api/lane_data.h:173-180. -/
noncomputable def fromRpy (a : RollPitchYaw) : Rotation := fromQuat a.toQuaternion

/-- `Rotation::rpy`, include/maliput/api/lane_data.h:193. -/
noncomputable def rpy (r : Rotation) : RollPitchYaw := RollPitchYaw.ofQuaternion r.quaternion

/-- `Rotation::matrix`, src/maliput/api/lane_data.cc:72. -/
noncomputable def matrix (r : Rotation) : M3 := r.quaternion.toRotationMatrix

/-- `Rotation::Apply`, src/maliput/api/lane_data.cc:63-65. -/
def apply (r : Rotation) (v : V3) : V3 := r.quaternion.transformVector v

/-- `Rotation::Reverse`, src/maliput/api/lane_data.cc:74-76. -/
noncomputable def reverse (r : Rotation) : Rotation :=
  fromQuat (r.quaternion.mul (Quaternion.ofAngleAxis Real.pi ⟨0, 0, 1⟩))

/-- `Rotation::Distance`, src/maliput/api/lane_data.cc:78-93. -/
noncomputable def distance (r rot : Rotation) : ℝ :=
  let ds := Real.arccos ((r.apply ⟨1, 0, 0⟩).dot (rot.apply ⟨1, 0, 0⟩))
  let dr := Real.arccos ((r.apply ⟨0, 1, 0⟩).dot (rot.apply ⟨0, 1, 0⟩))
  let dh := Real.arccos ((r.apply ⟨0, 0, 1⟩).dot (rot.apply ⟨0, 0, 1⟩))
  Real.sqrt (ds * ds + dr * dr + dh * dh)

end Rotation

end Maliput.Quat
