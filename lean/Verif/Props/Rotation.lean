import Verif.Props.RollPitchYaw

set_option autoImplicit false

/-! Property C69: `api::Rotation`. -/
namespace Maliput.Props

open Maliput.Linear Maliput.Quat

/-- C69: the quaternion of every rotation a program can get is a unit quaternion. -/
theorem rotation_unit {r : Rotation} (h : Spec.Reachable r) : Spec.Unit r.quaternion := by
  cases h with
  | new => norm_num [Rotation.new, Quaternion.identity, Spec.Unit]
  | fromQuat q => exact Quaternion.unit_normalized q
  | fromRpy a => exact Quaternion.unit_normalized _
  | reverse h => exact Quaternion.unit_normalized _

/-- C69: `Apply` multiplies with `matrix`, which is a rotation matrix, and keeps distances. -/
theorem rotation_apply {r : Rotation} (h : Spec.Reachable r) :
    Spec.IsRotation r.matrix ∧ ∀ u v, r.apply v = r.matrix.mulVec v ∧ ((r.apply u).sub (r.apply v)).norm = (u.sub v).norm := by
  have hu := rotation_unit h
  refine ⟨isRotation_toRotationMatrix _, fun u v => ⟨Quaternion.transformVector_matrix hu v, ?_⟩⟩
  have e : (r.apply u).sub (r.apply v) = r.apply (u.sub v) := by
    ext <;> simp only [Rotation.apply, Quaternion.transformVector, V3.add, V3.sub, V3.smul, Quat.cross, Quaternion.vec] <;> ring
  rw [e]
  unfold V3.norm Rotation.apply
  rw [Quaternion.transformVector_dot hu]

/-- The rotation from roll, pitch and yaw is that of `RollPitchYaw::ToMatrix`. -/
theorem rotation_fromRpy (a : RollPitchYaw) : (Rotation.fromRpy a).matrix = a.toMatrix := by
  rw [← RollPitchYaw.toMatrix_eq]
  unfold Rotation.matrix Rotation.fromRpy Rotation.fromQuat
  exact (Quaternion.toRotationMatrix_normalized _).symm

/-- Half a turn about the third axis, applied first. -/
theorem reverse_quaternion {r : Rotation} (h : Spec.Unit r.quaternion) :
    r.reverse.quaternion = ⟨-r.quaternion.z, r.quaternion.y, -r.quaternion.x, r.quaternion.w⟩ := by
  have hn : V3.norm ⟨0, 0, 1⟩ = 1 := by norm_num [V3.norm, V3.dot]
  have ha : Quaternion.ofAngleAxis Real.pi ⟨0, 0, 1⟩ = ⟨0, 0, 0, 1⟩ := by
    rw [(ofAngleAxis_eq (by rw [hn]; have := tolerance_lt; linarith)).1]
    simp [hn]
  unfold Rotation.reverse Rotation.fromQuat
  simp only
  rw [ha]
  have e : r.quaternion.mul ⟨0, 0, 0, 1⟩ = ⟨-r.quaternion.z, r.quaternion.y, -r.quaternion.x, r.quaternion.w⟩ := by
    simp [Quaternion.mul]
  rw [e]
  apply Quaternion.normalized_unit
  unfold Spec.Unit at h ⊢
  simp only
  linarith

/-- C69: `Reverse` is the rotation after half a turn about the third axis; reversing twice gives the same rotation. -/
theorem rotation_reverse {r : Rotation} (h : Spec.Reachable r) (v : V3) :
    r.reverse.apply v = r.apply ⟨-v.x, -v.y, v.z⟩ ∧ r.reverse.reverse.apply v = r.apply v := by
  have key : ∀ {r : Rotation}, Spec.Reachable r → ∀ v, r.reverse.apply v = r.apply ⟨-v.x, -v.y, v.z⟩ := by
    intro r h v
    have hu := rotation_unit h
    unfold Rotation.apply
    rw [Quaternion.transformVector_matrix (rotation_unit h.reverse), Quaternion.transformVector_matrix hu,
      Quaternion.toRotationMatrix_unit (rotation_unit h.reverse), Quaternion.toRotationMatrix_unit hu, reverse_quaternion hu]
    unfold Spec.Unit at hu
    have hw : r.quaternion.w ^ 2 = 1 - r.quaternion.x ^ 2 - r.quaternion.y ^ 2 - r.quaternion.z ^ 2 := by linarith
    ext <;> simp only [M3.mulVec] <;> ring_nf <;> (try simp only [hw]) <;> ring
  refine ⟨key h v, ?_⟩
  rw [key h.reverse, key h]
  simp

/-- C69: reversing twice changes the sign of the quaternion. -/
theorem rotation_reverse_sign {r : Rotation} (h : Spec.Reachable r) : r.reverse.reverse.quaternion = Spec.neg r.quaternion := by
  rw [reverse_quaternion (rotation_unit h.reverse), reverse_quaternion (rotation_unit h)]
  rfl

theorem distance_congr {r r' s : Rotation} (h : ∀ v, r.apply v = r'.apply v) : r.distance s = r'.distance s := by
  unfold Rotation.distance
  rw [h, h, h]

/-- C69: what the checks of road geometries assume of `Reverse` and `Distance`. -/
theorem rotation_reverse_distance {r : Rotation} (h : Spec.Reachable r) (s : Rotation) :
    r.reverse.reverse.distance s = r.distance s := distance_congr fun v => (rotation_reverse h v).2

/-- The vector as an element of the euclidean space. -/
noncomputable def toE3 (v : V3) : EuclideanSpace ℝ (Fin 3) := !₂[v.x, v.y, v.z]

theorem arccos_triangle {u v w : V3} (hu : u.dot u = 1) (hv : v.dot v = 1) (hw : w.dot w = 1) :
    Real.arccos (u.dot w) ≤ Real.arccos (u.dot v) + Real.arccos (v.dot w) := by
  have hi : ∀ a b : V3, inner ℝ (toE3 a) (toE3 b) = a.dot b := by
    intro a b
    simp [toE3, V3.dot, PiLp.inner_apply, Fin.sum_univ_three]
    ring
  have hn : ∀ a : V3, a.dot a = 1 → ‖toE3 a‖ = 1 := by
    intro a ha
    have h1 : ‖toE3 a‖ ^ 2 = 1 := by rw [← real_inner_self_eq_norm_sq, hi, ha]
    nlinarith [_root_.norm_nonneg (toE3 a)]
  have h := InnerProductGeometry.angle_le_angle_add_angle (toE3 u) (toE3 v) (toE3 w)
  simpa [InnerProductGeometry.angle, hi, hn u hu, hn v hv, hn w hw] using h

theorem eq_of_dot_one {u v : V3} (hu : u.dot u = 1) (hv : v.dot v = 1) (h : 1 ≤ u.dot v) : u = v := by
  unfold V3.dot at *
  have a := sq_nonneg (u.x - v.x)
  have b := sq_nonneg (u.y - v.y)
  have c := sq_nonneg (u.z - v.z)
  ext
  · exact sub_eq_zero.1 (pow_eq_zero_iff two_ne_zero |>.1 (by nlinarith : (u.x - v.x) ^ 2 = 0))
  · exact sub_eq_zero.1 (pow_eq_zero_iff two_ne_zero |>.1 (by nlinarith : (u.y - v.y) ^ 2 = 0))
  · exact sub_eq_zero.1 (pow_eq_zero_iff two_ne_zero |>.1 (by nlinarith : (u.z - v.z) ^ 2 = 0))

theorem apply_basis (r : Rotation) (v : V3) :
    r.apply v = ((V3.smul v.x (r.apply ⟨1, 0, 0⟩)).add (V3.smul v.y (r.apply ⟨0, 1, 0⟩))).add (V3.smul v.z (r.apply ⟨0, 0, 1⟩)) := by
  unfold Rotation.apply
  ext <;> simp only [Quaternion.transformVector, V3.add, V3.smul, Quat.cross, Quaternion.vec] <;> ring

/-- C69: `Distance` is a distance of rotations: it is not negative, zero exactly if both rotate all vectors in the same way,
symmetric, and the triangle inequality holds. -/
theorem rotation_distance {r s t : Rotation} (hr : Spec.Reachable r) (hs : Spec.Reachable s) (ht : Spec.Reachable t) :
    0 ≤ r.distance s ∧ (r.distance s = 0 ↔ ∀ v, r.apply v = s.apply v) ∧ r.distance s = s.distance r ∧
    r.distance t ≤ r.distance s + s.distance t := by
  have unit : ∀ {r : Rotation}, Spec.Reachable r → ∀ v : V3, v.dot v = 1 → (r.apply v).dot (r.apply v) = 1 := by
    intro r h v hv
    rw [← hv]
    exact Quaternion.transformVector_dot (rotation_unit h) v v
  have e1 : V3.dot ⟨1, 0, 0⟩ ⟨1, 0, 0⟩ = 1 := by norm_num [V3.dot]
  have e2 : V3.dot ⟨0, 1, 0⟩ ⟨0, 1, 0⟩ = 1 := by norm_num [V3.dot]
  have e3 : V3.dot ⟨0, 0, 1⟩ ⟨0, 0, 1⟩ = 1 := by norm_num [V3.dot]
  have comm : ∀ a b : V3, a.dot b = b.dot a := by intro a b; unfold V3.dot; ring
  have norm : ∀ r s : Rotation, r.distance s = V3.norm ⟨Real.arccos ((r.apply ⟨1, 0, 0⟩).dot (s.apply ⟨1, 0, 0⟩)),
      Real.arccos ((r.apply ⟨0, 1, 0⟩).dot (s.apply ⟨0, 1, 0⟩)), Real.arccos ((r.apply ⟨0, 0, 1⟩).dot (s.apply ⟨0, 0, 1⟩))⟩ :=
    fun r s => rfl
  refine ⟨Real.sqrt_nonneg _, ?_, ?_, ?_⟩
  · rw [norm, Quat.norm_eq_zero]
    constructor
    · rintro ⟨h1, h2, h3⟩ v
      simp only at h1 h2 h3
      rw [Real.arccos_eq_zero] at h1 h2 h3
      rw [apply_basis r, apply_basis s, eq_of_dot_one (unit hr _ e1) (unit hs _ e1) h1,
        eq_of_dot_one (unit hr _ e2) (unit hs _ e2) h2, eq_of_dot_one (unit hr _ e3) (unit hs _ e3) h3]
    · intro h
      simp only [h]
      rw [unit hs _ e1, unit hs _ e2, unit hs _ e3, Real.arccos_one]
      exact ⟨rfl, rfl, rfl⟩
  · rw [norm, norm]
    simp only [comm (s.apply _) (r.apply _)]
  · have t1 := arccos_triangle (unit hr _ e1) (unit hs _ e1) (unit ht _ e1)
    have t2 := arccos_triangle (unit hr _ e2) (unit hs _ e2) (unit ht _ e2)
    have t3 := arccos_triangle (unit hr _ e3) (unit hs _ e3) (unit ht _ e3)
    rw [norm, norm, norm]
    have n1 := Real.arccos_nonneg ((r.apply ⟨1, 0, 0⟩).dot (t.apply ⟨1, 0, 0⟩))
    have n2 := Real.arccos_nonneg ((r.apply ⟨0, 1, 0⟩).dot (t.apply ⟨0, 1, 0⟩))
    have n3 := Real.arccos_nonneg ((r.apply ⟨0, 0, 1⟩).dot (t.apply ⟨0, 0, 1⟩))
    generalize Real.arccos ((r.apply ⟨1, 0, 0⟩).dot (t.apply ⟨1, 0, 0⟩)) = a1 at *
    generalize Real.arccos ((r.apply ⟨0, 1, 0⟩).dot (t.apply ⟨0, 1, 0⟩)) = a2 at *
    generalize Real.arccos ((r.apply ⟨0, 0, 1⟩).dot (t.apply ⟨0, 0, 1⟩)) = a3 at *
    generalize Real.arccos ((r.apply ⟨1, 0, 0⟩).dot (s.apply ⟨1, 0, 0⟩)) = b1 at *
    generalize Real.arccos ((r.apply ⟨0, 1, 0⟩).dot (s.apply ⟨0, 1, 0⟩)) = b2 at *
    generalize Real.arccos ((r.apply ⟨0, 0, 1⟩).dot (s.apply ⟨0, 0, 1⟩)) = b3 at *
    generalize Real.arccos ((s.apply ⟨1, 0, 0⟩).dot (t.apply ⟨1, 0, 0⟩)) = c1 at *
    generalize Real.arccos ((s.apply ⟨0, 1, 0⟩).dot (t.apply ⟨0, 1, 0⟩)) = c2 at *
    generalize Real.arccos ((s.apply ⟨0, 0, 1⟩).dot (t.apply ⟨0, 0, 1⟩)) = c3 at *
    have hb := Quat.norm_sq ⟨b1, b2, b3⟩
    have hc := Quat.norm_sq ⟨c1, c2, c3⟩
    have ha := Quat.norm_sq ⟨a1, a2, a3⟩
    have hcs := le_trans (le_abs_self _) (dot_abs_le ⟨b1, b2, b3⟩ ⟨c1, c2, c3⟩)
    have nb := Quat.norm_nonneg ⟨b1, b2, b3⟩
    have nc := Quat.norm_nonneg ⟨c1, c2, c3⟩
    apply le_of_sq_le_sq _ (add_nonneg nb nc)
    unfold V3.dot at hcs
    simp only at ha hb hc hcs
    have s1 : a1 ^ 2 ≤ (b1 + c1) ^ 2 := pow_le_pow_left₀ n1 t1 2
    have s2 : a2 ^ 2 ≤ (b2 + c2) ^ 2 := pow_le_pow_left₀ n2 t2 2
    have s3 : a3 ^ 2 ≤ (b3 + c3) ^ 2 := pow_le_pow_left₀ n3 t3 2
    rw [ha]
    nlinarith

/-- C69: a rotation and its reverse are at a distance of `√2 π`. -/
theorem rotation_distance_reverse {r : Rotation} (h : Spec.Reachable r) : r.distance r.reverse = Real.sqrt 2 * Real.pi := by
  have hu := rotation_unit h
  have d : ∀ u v : V3, (r.apply u).dot (r.reverse.apply v) = u.dot ⟨-v.x, -v.y, v.z⟩ := by
    intro u v
    rw [(rotation_reverse h v).1]
    exact Quaternion.transformVector_dot hu _ _
  unfold Rotation.distance
  simp only
  rw [d, d, d]
  have h1 : V3.dot ⟨1, 0, 0⟩ ⟨-1, -0, 0⟩ = -1 := by norm_num [V3.dot]
  have h2 : V3.dot ⟨0, 1, 0⟩ ⟨-0, -1, 0⟩ = -1 := by norm_num [V3.dot]
  have h3 : V3.dot ⟨0, 0, 1⟩ ⟨-0, -0, 1⟩ = 1 := by norm_num [V3.dot]
  simp only
  rw [h1, h2, h3, Real.arccos_neg_one, Real.arccos_one,
    show Real.pi * Real.pi + Real.pi * Real.pi + 0 * 0 = 2 * Real.pi ^ 2 by ring, Real.sqrt_mul (by norm_num),
    Real.sqrt_sq Real.pi_pos.le]

/-- C69: the angles of a rotation are those of its quaternion: the rotation from them is the same, unless it is near a
gimbal lock. -/
theorem rotation_rpy {r : Rotation} (h : Spec.Reachable r) (hn : ¬Spec.NearGimbalLock r.quaternion) (v : V3) :
    (Rotation.fromRpy r.rpy).apply v = r.apply v := by
  have hu := rotation_unit h
  have hf := rotation_unit (Spec.Reachable.fromRpy r.rpy)
  unfold Rotation.apply
  rw [Quaternion.transformVector_matrix hf, Quaternion.transformVector_matrix hu]
  have e := rotation_fromRpy r.rpy
  unfold Rotation.matrix at e
  rw [e]
  rw [show r.rpy.toMatrix = r.quaternion.toRotationMatrix from
    (rpy_of_quaternion r.quaternion (by rwa [Quaternion.normalized_unit hu])).2]

example : Spec.Reachable (Rotation.fromRpy ⟨1, 2, 3⟩).reverse := .reverse (.fromRpy _)

end Maliput.Props
