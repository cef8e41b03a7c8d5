import Verif.Lemmas.RollPitchYaw

set_option autoImplicit false

/-! Properties C39, C67 and C68: roll, pitch and yaw. -/
namespace Maliput.Props

open Maliput.Linear Maliput.Quat Maliput.Quat.RollPitchYaw

/-- C39: the quaternion of roll, pitch and yaw is a unit quaternion, and its matrix is `ToMatrix`, which is a rotation
matrix. -/
theorem rpy_quaternion (a : RollPitchYaw) :
    Spec.Unit a.toQuaternion ∧ a.toQuaternion.toRotationMatrix = a.toMatrix ∧ Spec.IsRotation a.toMatrix := by
  refine ⟨unit_toQuaternion a, toMatrix_eq a, ?_⟩
  rw [← toMatrix_eq]
  exact isRotation_toRotationMatrix _

/-- C39: the matrix of roll, pitch and yaw rolls about the first axis, then pitches about the second, then yaws about the
third. -/
theorem rpy_order (a : RollPitchYaw) (v : V3) :
    a.toMatrix.mulVec v = Spec.rotate ⟨0, 0, 1⟩ a.yaw (Spec.rotate ⟨0, 1, 0⟩ a.pitch (Spec.rotate ⟨1, 0, 0⟩ a.roll v)) := by
  ext <;> simp only [toMatrix, M3.mulVec, Spec.rotate, V3.add, V3.smul, V3.dot, Quat.cross] <;> ring

/-- C67: roll and yaw of a quaternion are between `-π` and `π`, and its pitch is between `-π / 2` and `π / 2`. -/
theorem rpy_range (q : Quaternion) :
    -Real.pi ≤ (ofQuaternion q).roll ∧ (ofQuaternion q).roll ≤ Real.pi ∧
    -(Real.pi / 2) ≤ (ofQuaternion q).pitch ∧ (ofQuaternion q).pitch ≤ Real.pi / 2 ∧
    -Real.pi ≤ (ofQuaternion q).yaw ∧ (ofQuaternion q).yaw ≤ Real.pi := by
  obtain ⟨a1, a2⟩ := halfAngle_range (q.normalized.x + q.normalized.z) (q.normalized.w - q.normalized.y)
  obtain ⟨b1, b2⟩ := halfAngle_range (q.normalized.z - q.normalized.x) (q.normalized.w + q.normalized.y)
  have h1 := wrap_eq (halfAngle (q.normalized.x + q.normalized.z) (q.normalized.w - q.normalized.y) -
    halfAngle (q.normalized.z - q.normalized.x) (q.normalized.w + q.normalized.y)) (by linarith) (by linarith)
  have h2 := wrap_eq (halfAngle (q.normalized.x + q.normalized.z) (q.normalized.w - q.normalized.y) +
    halfAngle (q.normalized.z - q.normalized.x) (q.normalized.w + q.normalized.y)) (by linarith) (by linarith)
  have h3 := abs_le.1 (Complex.abs_arg_le_pi_div_two_iff.2 (show 0 ≤ (⟨Real.sqrt ((q.toRotationMatrix.zz * q.toRotationMatrix.zz +
    q.toRotationMatrix.zy * q.toRotationMatrix.zy + q.toRotationMatrix.yx * q.toRotationMatrix.yx +
    q.toRotationMatrix.xx * q.toRotationMatrix.xx) / 2), -q.toRotationMatrix.zx⟩ : ℂ).re from Real.sqrt_nonneg _))
  exact ⟨h1.1, h1.2.1, h3.1, h3.2, h2.1, h2.2.1⟩

/-- The angles of a quaternion are those of its normalized quaternion. -/
theorem rpy_normalized (q : Quaternion) : ofQuaternion q = ofQuaternion q.normalized := by
  unfold ofQuaternion
  rw [← Quaternion.toRotationMatrix_normalized, Quaternion.normalized_unit (Quaternion.unit_normalized q)]

/-- C67: the quaternion of the angles of a quaternion is that quaternion, normalized and up to the sign, and the matrix is
the same, unless the quaternion is near a gimbal lock. -/
theorem rpy_of_quaternion (q : Quaternion) (hn : ¬Spec.NearGimbalLock q.normalized) :
    ((ofQuaternion q).toQuaternion = q.normalized ∨ (ofQuaternion q).toQuaternion = Spec.neg q.normalized) ∧
    (ofQuaternion q).toMatrix = q.toRotationMatrix := by
  rw [rpy_normalized, Quaternion.toRotationMatrix_normalized]
  have hu := Quaternion.unit_normalized q
  generalize q.normalized = q at *
  obtain ⟨k, zA, zB, rA, rB, hk, h1, h2, h3, h4, h5⟩ := roundtrip hu
  obtain ⟨-, -, hA⟩ := halfAngle_polar (q.x + q.z) (q.w - q.y)
  obtain ⟨-, -, hB⟩ := halfAngle_polar (q.z - q.x) (q.w + q.y)
  unfold Spec.NearGimbalLock at hn
  obtain ⟨a1, a2⟩ := hA (by by_contra hc; exact hn (Or.inl (by tauto)))
  obtain ⟨b1, b2⟩ := hB (by by_contra hc; exact hn (Or.inr (by tauto)))
  rw [← h1, ← h3] at a1 a2
  rw [← h2, ← h4] at b1 b2
  rw [a1, a2, b1, b2] at h5
  have hs : (ofQuaternion q).toQuaternion = q ∨ (ofQuaternion q).toQuaternion = Spec.neg q := by
    rcases hk with rfl | rfl
    · left
      rw [h5]
      ext <;> simp only <;> ring
    · right
      rw [h5]
      ext <;> simp only [Spec.neg] <;> ring
  exact ⟨hs, by rw [← toMatrix_eq]; exact (matrix_eq_iff (unit_toQuaternion _) hu).2 hs⟩

/-- C67: for every quaternion, near a gimbal lock too, the components of the quaternion of its angles are those of the
normalized quaternion, up to the sign, with an error of at most three times the epsilon of doubles. -/
theorem rpy_of_quaternion_error (q : Quaternion) : ∃ p, (p = q.normalized ∨ p = Spec.neg q.normalized) ∧
    |(ofQuaternion q).toQuaternion.w - p.w| ≤ 3 / 2 ^ 52 ∧ |(ofQuaternion q).toQuaternion.x - p.x| ≤ 3 / 2 ^ 52 ∧
    |(ofQuaternion q).toQuaternion.y - p.y| ≤ 3 / 2 ^ 52 ∧ |(ofQuaternion q).toQuaternion.z - p.z| ≤ 3 / 2 ^ 52 := by
  rw [rpy_normalized]
  have hu := Quaternion.unit_normalized q
  generalize q.normalized = q at *
  obtain ⟨k, zA, zB, rA, rB, hk, h1, h2, h3, h4, h5⟩ := roundtrip hu
  obtain ⟨a1, a2, -⟩ := halfAngle_polar (q.x + q.z) (q.w - q.y)
  obtain ⟨b1, b2, -⟩ := halfAngle_polar (q.z - q.x) (q.w + q.y)
  rw [← h1, ← h3] at a1 a2
  rw [← h2, ← h4] at b1 b2
  rw [h5]
  rw [abs_le] at a1 a2 b1 b2
  obtain ⟨a3, a4⟩ := a1
  obtain ⟨a5, a6⟩ := a2
  obtain ⟨b3, b4⟩ := b1
  obtain ⟨b5, b6⟩ := b2
  rcases hk with rfl | rfl
  · refine ⟨q, Or.inl rfl, ?_, ?_, ?_, ?_⟩ <;> rw [abs_le] <;> constructor <;> linarith
  · refine ⟨Spec.neg q, Or.inr rfl, ?_, ?_, ?_, ?_⟩ <;> simp only [Spec.neg] <;> rw [abs_le] <;> constructor <;> linarith

/-- C67: the angles of the quaternion of some angles are those angles, if they are in the ranges and the pitch is not
near `π / 2` or `-π / 2`. -/
theorem rpy_roundtrip (a : RollPitchYaw) (hr : |a.roll| < Real.pi) (hp : |a.pitch| < Real.pi / 2) (hy : |a.yaw| < Real.pi)
    (hn : ¬Spec.NearGimbalLock a.toQuaternion) : ofQuaternion a.toQuaternion = a := by
  obtain ⟨r1, r2, p1, p2, y1, y2⟩ := rpy_range a.toQuaternion
  have hm := (rpy_of_quaternion a.toQuaternion (by rwa [Quaternion.normalized_unit (unit_toQuaternion a)])).2
  rw [toMatrix_eq] at hm
  generalize ofQuaternion a.toQuaternion = b at *
  obtain ⟨hr1, hr2⟩ := abs_lt.1 hr
  obtain ⟨hp1, hp2⟩ := abs_lt.1 hp
  obtain ⟨hy1, hy2⟩ := abs_lt.1 hy
  simp only [toMatrix, M3.mk.injEq] at hm
  obtain ⟨h1, h2, h3, h4, h5, h6, h7, h8, h9⟩ := hm
  have hpitch : b.pitch = a.pitch :=
    Real.injOn_sin ⟨p1, p2⟩ ⟨hp1.le, hp2.le⟩ (by linarith)
  have hc : 0 < Real.cos a.pitch := Real.cos_pos_of_mem_Ioo ⟨hp1, hp2⟩
  rw [hpitch] at h1 h4 h8 h9
  have hroll : b.roll = a.roll :=
    angle_unique r1 r2 hr1 hr2 (mul_left_cancel₀ hc.ne' h9) (mul_left_cancel₀ hc.ne' h8)
  have hyaw : b.yaw = a.yaw :=
    angle_unique y1 y2 hy1 hy2 (mul_right_cancel₀ hc.ne' h1) (mul_right_cancel₀ hc.ne' h4)
  ext
  exacts [hroll, hpitch, hyaw]

/-- Zero angles and a pitch of exactly `π / 2` are not near a gimbal lock in this sense. -/
example : ¬Spec.NearGimbalLock Quaternion.identity ∧ ¬Spec.NearGimbalLock (toQuaternion ⟨0, Real.pi / 2, 0⟩) := by
  have h1 : ¬Spec.NearGimbalLock Quaternion.identity := by
    norm_num [Spec.NearGimbalLock, Quaternion.identity]
  refine ⟨h1, ?_⟩
  have h4 : Real.pi / 2 / 2 = Real.pi / 4 := by ring
  have hs : (1 : ℝ) ≤ Real.sqrt 2 := by rw [Real.one_le_sqrt]; norm_num
  unfold Spec.NearGimbalLock toQuaternion
  simp only [zero_div, Real.cos_zero, Real.sin_zero, h4, Real.cos_pi_div_four, Real.sin_pi_div_four]
  rintro (⟨_, _, h⟩ | ⟨_, h, _⟩)
  · apply h
    constructor <;> ring
  · rw [abs_le] at h
    norm_num at h
    linarith [h.2]

/-- C68: `CalcRotationMatrixDt` is the derivative of the matrix when the angles are functions of time: each of the nine
entries. -/
theorem rpy_derivative (r p y : ℝ → ℝ) (d : V3) (t : ℝ) (hr : HasDerivAt r d.x t) (hp : HasDerivAt p d.y t)
    (hy : HasDerivAt y d.z t) :
    let m : ℝ → M3 := fun s => toMatrix ⟨r s, p s, y s⟩
    let m' : M3 := rotationMatrixDt ⟨r t, p t, y t⟩ d
    HasDerivAt (fun s => (m s).xx) m'.xx t ∧ HasDerivAt (fun s => (m s).xy) m'.xy t ∧ HasDerivAt (fun s => (m s).xz) m'.xz t ∧
    HasDerivAt (fun s => (m s).yx) m'.yx t ∧ HasDerivAt (fun s => (m s).yy) m'.yy t ∧ HasDerivAt (fun s => (m s).yz) m'.yz t ∧
    HasDerivAt (fun s => (m s).zx) m'.zx t ∧ HasDerivAt (fun s => (m s).zy) m'.zy t ∧ HasDerivAt (fun s => (m s).zz) m'.zz t := by
  have c0 := hr.cos
  have s0 := hr.sin
  have c1 := hp.cos
  have s1 := hp.sin
  have c2 := hy.cos
  have s2 := hy.sin
  simp only [toMatrix, rotationMatrixDt, M3.add, M3.scale, dRoll, dPitch, dYaw]
  refine ⟨(c2.mul c1).congr_deriv ?_, (((c2.mul s1).mul s0).sub (s2.mul c0)).congr_deriv ?_,
    (((c2.mul s1).mul c0).add (s2.mul s0)).congr_deriv ?_, (s2.mul c1).congr_deriv ?_,
    (((s2.mul s1).mul s0).add (c2.mul c0)).congr_deriv ?_, (((s2.mul s1).mul c0).sub (c2.mul s0)).congr_deriv ?_,
    s1.neg.congr_deriv ?_, (c1.mul s0).congr_deriv ?_, (c1.mul c0).congr_deriv ?_⟩ <;>
    (try simp only [Pi.mul_apply]) <;> ring

/-- C68: the matrices of `CalcRotationMatrixDrDpDy` are the partial derivatives: the derivatives with one angle moving. -/
theorem rpy_each_angle (a : RollPitchYaw) :
    a.dRoll = a.rotationMatrixDt ⟨1, 0, 0⟩ ∧ a.dPitch = a.rotationMatrixDt ⟨0, 1, 0⟩ ∧ a.dYaw = a.rotationMatrixDt ⟨0, 0, 1⟩ := by
  refine ⟨?_, ?_, ?_⟩ <;> ext <;> simp [rotationMatrixDt, M3.add, M3.scale]

example : HasDerivAt (fun t : ℝ => 2 * t) 2 0 := by simpa using (hasDerivAt_id (0 : ℝ)).const_mul 2

end Maliput.Props
