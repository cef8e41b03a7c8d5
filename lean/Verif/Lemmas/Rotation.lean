import Verif.Lemmas.RotationMatrix

set_option autoImplicit false

/-! Lemmas about rotations: between matrices and quaternions. -/
namespace Maliput.Quat

open Maliput.Linear Quaternion

theorem pivot {k : ℝ} (hk : 0 < k) :
    Real.sqrt k / 2 * (Real.sqrt k / 2) = k / 4 ∧
    (∀ p, Real.sqrt k / 2 * (p * (1 / (4 * (Real.sqrt k / 2)))) = p / 4) ∧
    ∀ p q r, p * q = k * r → p * (1 / (4 * (Real.sqrt k / 2))) * (q * (1 / (4 * (Real.sqrt k / 2)))) = r / 4 := by
  have h0 : 0 < Real.sqrt k := Real.sqrt_pos.2 hk
  have h1 : Real.sqrt k ^ 2 = k := Real.sq_sqrt hk.le
  refine ⟨by nlinarith, fun p => by field_simp, fun p q r h => ?_⟩
  have h2 : p * (1 / (4 * (Real.sqrt k / 2))) * (q * (1 / (4 * (Real.sqrt k / 2)))) = p * q / (4 * Real.sqrt k ^ 2) := by
    field_simp
    norm_num
  rw [h2, h1, h]
  field_simp

theorem ofMatrix_spec {m : M3} (hm : Spec.IsRotation m) :
    Spec.Unit (ofMatrix m) ∧ (ofMatrix m).toRotationMatrix = m := by
  have h := hm.ortho
  have ht := tolerance_lt
  suffices hs : ∃ w x y z, ofMatrix m = ⟨w, x, y, z⟩ ∧
      w * w = (1 + m.xx + m.yy + m.zz) / 4 ∧ x * x = (1 + m.xx - m.yy - m.zz) / 4 ∧
      y * y = (1 - m.xx + m.yy - m.zz) / 4 ∧ z * z = (1 - m.xx - m.yy + m.zz) / 4 ∧
      w * x = (m.zy - m.yz) / 4 ∧ w * y = (m.xz - m.zx) / 4 ∧ w * z = (m.yx - m.xy) / 4 ∧
      x * y = (m.yx + m.xy) / 4 ∧ x * z = (m.xz + m.zx) / 4 ∧ y * z = (m.yz + m.zy) / 4 by
    obtain ⟨w, x, y, z, he, h1, h2, h3, h4, h5, h6, h7, h8, h9, h10⟩ := hs
    rw [he]
    have hu : Spec.Unit ⟨w, x, y, z⟩ := by unfold Spec.Unit; simp only; nlinarith
    refine ⟨hu, ?_⟩
    rw [toRotationMatrix_unit hu]
    ext <;> simp only <;> linarith
  unfold ofMatrix
  simp only
  split
  · rename_i h1
    have hk : 0 < 1 + (m.xx + m.yy + m.zz) := by have := tolerance_pos; linarith
    obtain ⟨p1, p2, p3⟩ := pivot hk
    have e : 1 + (m.xx + m.yy + m.zz) = 1 + m.xx + m.yy + m.zz := by ring
    refine ⟨_, _, _, _, rfl, by rw [p1, e], p3 _ _ _ ?_, p3 _ _ _ ?_, p3 _ _ _ ?_, p2 _, p2 _, p2 _, p3 _ _ _ ?_, p3 _ _ _ ?_,
      p3 _ _ _ ?_⟩ <;> rw [e]
    exacts [h.k_wxx, h.k_wyy, h.k_wzz, h.k_wxy, h.k_wxz, h.k_wyz]
  split
  · rename_i h1 h2
    have hk : 0 < 1 + m.xx - m.yy - m.zz := by linarith [h2.1, h2.2]
    obtain ⟨p1, p2, p3⟩ := pivot hk
    refine ⟨_, _, _, _, rfl, p3 _ _ _ h.k_xww, p1, p3 _ _ _ h.k_xyy, p3 _ _ _ h.k_xzz, by rw [mul_comm]; exact p2 _,
      p3 _ _ _ h.k_xwy, p3 _ _ _ h.k_xwz, p2 _, p2 _, p3 _ _ _ h.k_xyz⟩
  split
  · rename_i h1 h2 h3
    have hk : 0 < 1 - m.xx + m.yy - m.zz := by
      by_cases h4 : m.xx > m.yy
      · have : ¬m.xx > m.zz := fun h5 => h2 ⟨h4, h5⟩
        linarith
      · linarith
    obtain ⟨p1, p2, p3⟩ := pivot hk
    have e : m.xy + m.yx = m.yx + m.xy := add_comm _ _
    rw [e]
    refine ⟨_, _, _, _, rfl, p3 _ _ _ h.k_yww, p3 _ _ _ h.k_yxx, p1, p3 _ _ _ h.k_yzz, p3 _ _ _ h.k_ywx,
      by rw [mul_comm]; exact p2 _, p3 _ _ _ h.k_ywz, by rw [mul_comm]; exact p2 _, p3 _ _ _ h.k_yxz, p2 _⟩
  · rename_i h1 h2 h3
    have hk : 0 < 1 - m.xx - m.yy + m.zz := by
      by_cases h4 : m.xx > m.yy
      · have : ¬m.xx > m.zz := fun h5 => h2 ⟨h4, h5⟩
        linarith
      · linarith
    obtain ⟨p1, p2, p3⟩ := pivot hk
    refine ⟨_, _, _, _, rfl, p3 _ _ _ h.k_zww, p3 _ _ _ h.k_zxx, p3 _ _ _ h.k_zyy, p1, p3 _ _ _ h.k_zwx, p3 _ _ _ h.k_zwy,
      by rw [mul_comm]; exact p2 _, p3 _ _ _ h.k_zxy, by rw [mul_comm]; exact p2 _, by rw [mul_comm]; exact p2 _⟩

theorem isRotation_of_unit {q : Quaternion} (h : Spec.Unit q) : Spec.IsRotation q.toRotationMatrix := by
  rw [toRotationMatrix_unit h]
  unfold Spec.Unit at h
  have hw : q.w ^ 2 = 1 - q.x ^ 2 - q.y ^ 2 - q.z ^ 2 := by linarith
  constructor
  · ext <;> simp only [M3.mul, M3.transpose, Spec.one] <;> ring_nf <;> (try simp only [hw]) <;> ring
  · ext <;> simp only [M3.mul, M3.transpose, Spec.one] <;> ring_nf <;> (try simp only [hw]) <;> ring
  · simp only [Spec.det]
    ring_nf
    simp only [hw]
    ring

theorem isRotation_toRotationMatrix (q : Quaternion) : Spec.IsRotation q.toRotationMatrix := by
  rw [toRotationMatrix_normalized]
  exact isRotation_of_unit (unit_normalized q)

/-- Unit quaternions whose product has an absolute value of one are the same up to the sign. -/
theorem eq_or_neg_of_dot {p q : Quaternion} (hp : Spec.Unit p) (hq : Spec.Unit q) (h : p.dot q ^ 2 = 1) :
    p = q ∨ p = Spec.neg q := by
  unfold Spec.Unit at hp hq
  have h1 : (p.dot q - 1) * (p.dot q + 1) = 0 := by linarith [sq (p.dot q)]
  rcases mul_eq_zero.1 h1 with h2 | h2
  · left
    have h3 : (p.w - q.w) ^ 2 + (p.x - q.x) ^ 2 + (p.y - q.y) ^ 2 + (p.z - q.z) ^ 2 = 0 := by
      unfold dot at h2; linarith
    have a := sq_nonneg (p.w - q.w)
    have b := sq_nonneg (p.x - q.x)
    have c := sq_nonneg (p.y - q.y)
    have d := sq_nonneg (p.z - q.z)
    ext
    · exact sub_eq_zero.1 (pow_eq_zero_iff (two_ne_zero) |>.1 (by linarith : (p.w - q.w) ^ 2 = 0))
    · exact sub_eq_zero.1 (pow_eq_zero_iff (two_ne_zero) |>.1 (by linarith : (p.x - q.x) ^ 2 = 0))
    · exact sub_eq_zero.1 (pow_eq_zero_iff (two_ne_zero) |>.1 (by linarith : (p.y - q.y) ^ 2 = 0))
    · exact sub_eq_zero.1 (pow_eq_zero_iff (two_ne_zero) |>.1 (by linarith : (p.z - q.z) ^ 2 = 0))
  · right
    have h3 : (p.w + q.w) ^ 2 + (p.x + q.x) ^ 2 + (p.y + q.y) ^ 2 + (p.z + q.z) ^ 2 = 0 := by
      unfold dot at h2; linarith
    have a := sq_nonneg (p.w + q.w)
    have b := sq_nonneg (p.x + q.x)
    have c := sq_nonneg (p.y + q.y)
    have d := sq_nonneg (p.z + q.z)
    ext
    · exact eq_neg_of_add_eq_zero_left (pow_eq_zero_iff (two_ne_zero) |>.1 (by linarith : (p.w + q.w) ^ 2 = 0))
    · exact eq_neg_of_add_eq_zero_left (pow_eq_zero_iff (two_ne_zero) |>.1 (by linarith : (p.x + q.x) ^ 2 = 0))
    · exact eq_neg_of_add_eq_zero_left (pow_eq_zero_iff (two_ne_zero) |>.1 (by linarith : (p.y + q.y) ^ 2 = 0))
    · exact eq_neg_of_add_eq_zero_left (pow_eq_zero_iff (two_ne_zero) |>.1 (by linarith : (p.z + q.z) ^ 2 = 0))

theorem unit_neg {q : Quaternion} (h : Spec.Unit q) : Spec.Unit (Spec.neg q) := by
  unfold Spec.Unit Spec.neg at *
  simp only
  linarith

theorem matrix_neg {q : Quaternion} (h : Spec.Unit q) : (Spec.neg q).toRotationMatrix = q.toRotationMatrix := by
  rw [toRotationMatrix_unit h, toRotationMatrix_unit (unit_neg h)]
  ext <;> simp only [Spec.neg] <;> ring

/-- Two unit quaternions have the same matrix exactly if they are the same up to the sign. -/
theorem matrix_eq_iff {p q : Quaternion} (hp : Spec.Unit p) (hq : Spec.Unit q) :
    p.toRotationMatrix = q.toRotationMatrix ↔ p = q ∨ p = Spec.neg q := by
  constructor
  · intro h
    rw [toRotationMatrix_unit hp, toRotationMatrix_unit hq] at h
    simp only [M3.mk.injEq] at h
    obtain ⟨h1, h2, h3, h4, h5, h6, h7, h8, h9⟩ := h
    apply eq_or_neg_of_dot hp hq
    unfold Spec.Unit at hp hq
    have xx : p.x * p.x = q.x * q.x := by linarith
    have yy : p.y * p.y = q.y * q.y := by linarith
    have zz : p.z * p.z = q.z * q.z := by linarith
    have ww : p.w * p.w = q.w * q.w := by linarith
    have xy : p.x * p.y = q.x * q.y := by linarith
    have xz : p.x * p.z = q.x * q.z := by linarith
    have yz : p.y * p.z = q.y * q.z := by linarith
    have wx : p.w * p.x = q.w * q.x := by linarith
    have wy : p.w * p.y = q.w * q.y := by linarith
    have wz : p.w * p.z = q.w * q.z := by linarith
    have e : p.dot q ^ 2 = (q.w ^ 2 + q.x ^ 2 + q.y ^ 2 + q.z ^ 2) ^ 2 := by
      unfold dot
      linear_combination q.w ^ 2 * ww + q.x ^ 2 * xx + q.y ^ 2 * yy + q.z ^ 2 * zz + 2 * q.w * q.x * wx + 2 * q.w * q.y * wy +
        2 * q.w * q.z * wz + 2 * q.x * q.y * xy + 2 * q.x * q.z * xz + 2 * q.y * q.z * yz
    rw [e, hq]
    norm_num
  · rintro (rfl | rfl)
    · rfl
    · exact matrix_neg hq

/-- Unit quaternions transform every vector in the same way exactly if they have the same matrix. -/
theorem transform_eq_iff {p q : Quaternion} (hp : Spec.Unit p) (hq : Spec.Unit q) :
    (∀ v, p.transformVector v = q.transformVector v) ↔ p.toRotationMatrix = q.toRotationMatrix := by
  constructor
  · intro h
    have h1 := h ⟨1, 0, 0⟩
    have h2 := h ⟨0, 1, 0⟩
    have h3 := h ⟨0, 0, 1⟩
    rw [transformVector_matrix hp, transformVector_matrix hq] at h1 h2 h3
    simp only [M3.mulVec, V3.mk.injEq, mul_one, mul_zero, add_zero, zero_add] at h1 h2 h3
    ext
    exacts [h1.1, h2.1, h3.1, h1.2.1, h2.2.1, h3.2.1, h1.2.2, h2.2.2, h3.2.2]
  · intro h v
    rw [transformVector_matrix hp, transformVector_matrix hq, h]

theorem smul_norm {v : V3} (h : v.norm ≠ 0) : (v.x / v.norm) ^ 2 + (v.y / v.norm) ^ 2 + (v.z / v.norm) ^ 2 = 1 := by
  have h1 := norm_sq v
  field_simp
  exact h1.symm

/-- The quaternion of an angle and an axis. -/
theorem ofAngleAxis_eq {angle : ℝ} {axis : V3} (h : tolerance ≤ axis.norm) :
    ofAngleAxis angle axis = ⟨Real.cos (angle / 2), axis.x / axis.norm * Real.sin (angle / 2),
      axis.y / axis.norm * Real.sin (angle / 2), axis.z / axis.norm * Real.sin (angle / 2)⟩ ∧
    Spec.Unit (ofAngleAxis angle axis) := by
  have hn : axis.norm ≠ 0 := by have := tolerance_pos; intro h0; rw [h0] at h; linarith
  have hu := smul_norm hn
  have he : (⟨Real.cos (angle * (1 / 2)), axis.x * (Real.sin (angle * (1 / 2)) / axis.norm),
      axis.y * (Real.sin (angle * (1 / 2)) / axis.norm), axis.z * (Real.sin (angle * (1 / 2)) / axis.norm)⟩ : Quaternion) =
      ⟨Real.cos (angle / 2), axis.x / axis.norm * Real.sin (angle / 2),
      axis.y / axis.norm * Real.sin (angle / 2), axis.z / axis.norm * Real.sin (angle / 2)⟩ := by
    rw [show angle * (1 / 2) = angle / 2 by ring]
    ext <;> simp only <;> ring
  have hunit : Spec.Unit ⟨Real.cos (angle / 2), axis.x / axis.norm * Real.sin (angle / 2),
      axis.y / axis.norm * Real.sin (angle / 2), axis.z / axis.norm * Real.sin (angle / 2)⟩ := by
    unfold Spec.Unit
    simp only
    have hc := Real.sin_sq_add_cos_sq (angle / 2)
    linear_combination Real.sin (angle / 2) ^ 2 * hu + hc
  unfold ofAngleAxis
  rw [if_neg (not_lt.2 h)]
  simp only
  rw [he, normalized_unit hunit]
  exact ⟨rfl, hunit⟩

end Maliput.Quat
