import Verif.Model.Quaternion

set_option autoImplicit false

/-! Specification of rotations. -/
namespace Maliput.Quat.Spec

open Maliput.Linear

/-- A quaternion of norm one. -/
def Unit (q : Quaternion) : Prop := q.w ^ 2 + q.x ^ 2 + q.y ^ 2 + q.z ^ 2 = 1

/-- The opposite quaternion, which is the same rotation. -/
def neg (q : Quaternion) : Quaternion := ⟨-q.w, -q.x, -q.y, -q.z⟩

/-- The determinant of a matrix with three rows. -/
def det (m : M3) : ℝ :=
  m.xx * (m.yy * m.zz - m.yz * m.zy) - m.xy * (m.yx * m.zz - m.yz * m.zx) + m.xz * (m.yx * m.zy - m.yy * m.zx)

/-- The identity matrix. -/
def one : M3 := ⟨1, 0, 0, 0, 1, 0, 0, 0, 1⟩

/-- A rotation matrix: its transpose is its inverse, on both sides, and its determinant is one. -/
structure IsRotation (m : M3) : Prop where
  left : m.transpose.mul m = one
  right : m.mul m.transpose = one
  det : det m = 1

/-- The rotation of `v` about the unit vector `u` by `angle`, counterclockwise (Rodrigues' formula). -/
noncomputable def rotate (u : V3) (angle : ℝ) (v : V3) : V3 :=
  ((V3.smul (Real.cos angle) v).add (V3.smul (Real.sin angle) (cross u v))).add
    (V3.smul ((1 - Real.cos angle) * u.dot v) u)

/-- The quaternion is so close to a pitch of `π / 2` or `-π / 2` that one of the two half angles is taken to be zero, but
not at it. -/
def NearGimbalLock (q : Quaternion) : Prop :=
  (|q.x + q.z| ≤ 1 / 2 ^ 52 ∧ |q.w - q.y| ≤ 1 / 2 ^ 52 ∧ ¬(q.w - q.y = 0 ∧ q.x + q.z = 0)) ∨
  (|q.z - q.x| ≤ 1 / 2 ^ 52 ∧ |q.w + q.y| ≤ 1 / 2 ^ 52 ∧ ¬(q.w + q.y = 0 ∧ q.z - q.x = 0))

/-- The rotations a program can get, with `api::Rotation`'s constructors and functions. -/
inductive Reachable : Rotation → Prop
  | new : Reachable .new
  | fromQuat (q : Quaternion) : Reachable (.fromQuat q)
  | fromRpy (a : RollPitchYaw) : Reachable (.fromRpy a)
  | reverse {r : Rotation} (h : Reachable r) : Reachable r.reverse

end Maliput.Quat.Spec
