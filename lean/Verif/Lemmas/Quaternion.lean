import Mathlib.Tactic.LinearCombination
import Mathlib.Tactic.NormNum
import Mathlib.Tactic.FieldSimp
import Mathlib.Tactic.Positivity
import Verif.Spec.Quaternion

set_option autoImplicit false

/-! Lemmas about rotations. -/
namespace Maliput.Quat

open Maliput.Linear Quaternion

theorem norm_nonneg (v : V3) : 0 ≤ v.norm := Real.sqrt_nonneg _

theorem norm_sq (v : V3) : v.norm ^ 2 = v.x ^ 2 + v.y ^ 2 + v.z ^ 2 := by
  unfold V3.norm V3.dot
  rw [Real.sq_sqrt (by nlinarith [sq_nonneg v.x, sq_nonneg v.y, sq_nonneg v.z])]
  ring

theorem tolerance_pos : 0 < tolerance := by unfold tolerance; positivity

theorem tolerance_lt : tolerance < 1 / 2 := by unfold tolerance; norm_num

namespace Quaternion

theorem norm_sq (q : Quaternion) : q.norm ^ 2 = q.w ^ 2 + q.x ^ 2 + q.y ^ 2 + q.z ^ 2 := by
  unfold norm
  rw [Real.sq_sqrt (by nlinarith [sq_nonneg q.x, sq_nonneg q.y, sq_nonneg q.z, sq_nonneg q.w])]
  ring

theorem norm_nonneg (q : Quaternion) : 0 ≤ q.norm := Real.sqrt_nonneg _

theorem norm_unit {q : Quaternion} (h : Spec.Unit q) : q.norm = 1 := by
  have h1 := norm_sq q
  have h2 := norm_nonneg q
  unfold Spec.Unit at h
  rw [h] at h1
  nlinarith

theorem normalized_unit {q : Quaternion} (h : Spec.Unit q) : q.normalized = q := by
  unfold normalized
  rw [norm_unit h, if_neg (by have := tolerance_lt; linarith)]
  simp

theorem unit_normalized (q : Quaternion) : Spec.Unit q.normalized := by
  unfold normalized
  split
  · norm_num [Spec.Unit, identity]
  · rename_i h
    have h1 := norm_sq q
    have h2 : q.norm ≠ 0 := by have := tolerance_pos; intro h0; rw [h0] at h; exact h this
    unfold Spec.Unit
    simp only
    field_simp
    exact h1.symm

theorem unit_conjugate {q : Quaternion} (h : Spec.Unit q) : Spec.Unit q.conjugate := by
  unfold Spec.Unit conjugate at *
  simp only
  linarith

theorem unit_mul {p q : Quaternion} (hp : Spec.Unit p) (hq : Spec.Unit q) : Spec.Unit (p.mul q) := by
  unfold Spec.Unit mul at *
  simp only
  linear_combination (q.w ^ 2 + q.x ^ 2 + q.y ^ 2 + q.z ^ 2) * hp + hq

theorem inverse_unit {q : Quaternion} (h : Spec.Unit q) : q.inverse = q.conjugate := by
  have h1 : q.squaredNorm = 1 := by unfold squaredNorm; unfold Spec.Unit at h; linarith
  unfold inverse
  simp only [h1]
  rw [if_pos (by have := tolerance_lt; linarith)]
  simp

/-- The rotation matrix of a unit quaternion. -/
theorem toRotationMatrix_unit {q : Quaternion} (h : Spec.Unit q) :
    q.toRotationMatrix = ⟨1 - 2 * (q.y * q.y + q.z * q.z), 2 * (q.x * q.y - q.w * q.z), 2 * (q.x * q.z + q.w * q.y),
      2 * (q.x * q.y + q.w * q.z), 1 - 2 * (q.x * q.x + q.z * q.z), 2 * (q.y * q.z - q.w * q.x),
      2 * (q.x * q.z - q.w * q.y), 2 * (q.y * q.z + q.w * q.x), 1 - 2 * (q.x * q.x + q.y * q.y)⟩ := by
  unfold toRotationMatrix
  rw [normalized_unit h]
  ext <;> simp only <;> ring

theorem toRotationMatrix_normalized (q : Quaternion) : q.toRotationMatrix = q.normalized.toRotationMatrix := by
  rw [show q.normalized.toRotationMatrix = _ from rfl]
  unfold toRotationMatrix
  rw [normalized_unit (unit_normalized q)]

theorem transformVector_matrix {q : Quaternion} (h : Spec.Unit q) (v : V3) :
    q.transformVector v = q.toRotationMatrix.mulVec v := by
  rw [toRotationMatrix_unit h]
  unfold Spec.Unit at h
  ext <;> simp only [transformVector, M3.mulVec, V3.add, V3.smul, cross, vec] <;> ring

theorem transformVector_dot {q : Quaternion} (h : Spec.Unit q) (u v : V3) :
    (q.transformVector u).dot (q.transformVector v) = u.dot v := by
  unfold Spec.Unit at h
  have hw : q.w ^ 2 = 1 - q.x ^ 2 - q.y ^ 2 - q.z ^ 2 := by linarith
  simp only [transformVector, V3.dot, V3.add, V3.smul, cross, vec]
  ring_nf
  rw [hw]
  ring

theorem transformVector_cross {q : Quaternion} (h : Spec.Unit q) (u v : V3) :
    cross (q.transformVector u) (q.transformVector v) = q.transformVector (cross u v) := by
  unfold Spec.Unit at h
  have hw : q.w ^ 2 = 1 - q.x ^ 2 - q.y ^ 2 - q.z ^ 2 := by linarith
  ext <;> simp only [transformVector, V3.add, V3.smul, cross, vec] <;> ring_nf <;> simp only [hw] <;> ring

theorem transformVector_mul {p q : Quaternion} (hp : Spec.Unit p) (hq : Spec.Unit q) (v : V3) :
    (p.mul q).transformVector v = p.transformVector (q.transformVector v) := by
  rw [transformVector_matrix (unit_mul hp hq), transformVector_matrix hp, transformVector_matrix hq,
    toRotationMatrix_unit (unit_mul hp hq), toRotationMatrix_unit hp, toRotationMatrix_unit hq]
  unfold Spec.Unit at hp hq
  have h1 : p.w ^ 2 = 1 - p.x ^ 2 - p.y ^ 2 - p.z ^ 2 := by linarith
  have h2 : q.w ^ 2 = 1 - q.x ^ 2 - q.y ^ 2 - q.z ^ 2 := by linarith
  ext <;> simp only [M3.mulVec, mul] <;> ring_nf <;> simp only [h1, h2] <;> ring

theorem transformVector_conjugate {q : Quaternion} (h : Spec.Unit q) (v : V3) :
    q.conjugate.transformVector (q.transformVector v) = v := by
  rw [← transformVector_mul (unit_conjugate h) h]
  have : q.conjugate.mul q = identity := by
    unfold Spec.Unit at h
    ext <;> simp only [mul, conjugate, identity]
    · linarith
    all_goals ring
  rw [this]
  ext <;> simp [transformVector, identity, vec, cross, V3.add, V3.smul]

theorem conjugate_conjugate (q : Quaternion) : q.conjugate.conjugate = q := by
  ext <;> simp [conjugate]

end Quaternion

end Maliput.Quat
