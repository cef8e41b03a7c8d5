import Verif.Lemmas.Slerp

set_option autoImplicit false

/-! Properties C39, C63, C64, C65 and C66: quaternions. -/
namespace Maliput.Props

open Maliput.Linear Maliput.Quat Maliput.Quat.Quaternion

/-- C39: for every quaternion, `ToRotationMatrix` is a rotation matrix; for a unit quaternion, transforming a vector is
multiplying with that matrix. -/
theorem rotation_matrix (q : Quaternion) :
    Spec.IsRotation q.toRotationMatrix ∧
    (Spec.Unit q → ∀ v, q.transformVector v = q.toRotationMatrix.mulVec v) :=
  ⟨isRotation_toRotationMatrix q, fun h v => transformVector_matrix h v⟩

/-- C39: a transformation by a unit quaternion keeps inner products, norms and the orientation. -/
theorem rotation_isometry (q : Quaternion) (h : Spec.Unit q) (u v : V3) :
    (q.transformVector u).dot (q.transformVector v) = u.dot v ∧ (q.transformVector v).norm = v.norm ∧
    Quat.cross (q.transformVector u) (q.transformVector v) = q.transformVector (Quat.cross u v) :=
  ⟨transformVector_dot h u v, by unfold V3.norm; rw [transformVector_dot h], transformVector_cross h u v⟩

/-- C39: the product of unit quaternions is the composition of the transformations. -/
theorem rotation_compose (p q : Quaternion) (hp : Spec.Unit p) (hq : Spec.Unit q) :
    Spec.Unit (p.mul q) ∧ ∀ v, (p.mul q).transformVector v = p.transformVector (q.transformVector v) :=
  ⟨unit_mul hp hq, transformVector_mul hp hq⟩

/-- C39: `Inverse` of a unit quaternion undoes the transformation, on both sides. -/
theorem rotation_inverse (q : Quaternion) (h : Spec.Unit q) :
    Spec.Unit q.inverse ∧ ∀ v, q.inverse.transformVector (q.transformVector v) = v ∧
      q.transformVector (q.inverse.transformVector v) = v := by
  rw [inverse_unit h]
  refine ⟨unit_conjugate h, fun v => ⟨transformVector_conjugate h v, ?_⟩⟩
  have := transformVector_conjugate (unit_conjugate h) v
  rwa [conjugate_conjugate] at this

/-- A unit quaternion. -/
noncomputable def someRotation : Quaternion := ⟨1 / 2, 1 / 2, -1 / 2, 1 / 2⟩

theorem someRotation_unit : Spec.Unit someRotation := by norm_num [someRotation, Spec.Unit]

example : someRotation.transformVector ⟨1, 2, 3⟩ ≠ ⟨1, 2, 3⟩ := by
  intro h
  have := congrArg V3.x h
  norm_num [someRotation, transformVector, V3.add, V3.smul, Quat.cross, vec] at this

/-- C63: the quaternion of a rotation matrix is a unit quaternion that has this matrix. -/
theorem quaternion_of_matrix (m : M3) (h : Spec.IsRotation m) :
    Spec.Unit (ofMatrix m) ∧ (ofMatrix m).toRotationMatrix = m ∧ ∀ v, (ofMatrix m).transformVector v = m.mulVec v := by
  obtain ⟨h1, h2⟩ := ofMatrix_spec h
  refine ⟨h1, h2, fun v => ?_⟩
  rw [transformVector_matrix h1, h2]

/-- C63: the quaternion of the matrix of a unit quaternion is that quaternion up to the sign, and exactly these have the
same matrix. -/
theorem matrix_of_quaternion (q : Quaternion) (h : Spec.Unit q) :
    (ofMatrix q.toRotationMatrix = q ∨ ofMatrix q.toRotationMatrix = Spec.neg q) ∧
    ∀ p, Spec.Unit p → (p.toRotationMatrix = q.toRotationMatrix ↔ p = q ∨ p = Spec.neg q) := by
  obtain ⟨h1, h2⟩ := ofMatrix_spec (isRotation_of_unit h)
  exact ⟨(matrix_eq_iff h1 h).1 h2, fun p hp => matrix_eq_iff hp h⟩

/-- Half a turn about each of the three axes: the cases of the constructor where the trace is not positive. -/
example : Spec.IsRotation ⟨1, 0, 0, 0, -1, 0, 0, 0, -1⟩ ∧ Spec.IsRotation ⟨-1, 0, 0, 0, 1, 0, 0, 0, -1⟩ ∧
    Spec.IsRotation ⟨-1, 0, 0, 0, -1, 0, 0, 0, 1⟩ ∧ Spec.IsRotation ⟨0, -1, 0, 1, 0, 0, 0, 0, 1⟩ := by
  refine ⟨⟨?_, ?_, ?_⟩, ⟨?_, ?_, ?_⟩, ⟨?_, ?_, ?_⟩, ⟨?_, ?_, ?_⟩⟩ <;>
    norm_num [M3.mul, M3.transpose, Spec.one, Spec.det]

/-- C64: the quaternion of an angle and an axis rotates about the axis by the angle; it is the identity if the axis is
shorter than the tolerance. -/
theorem quaternion_angle_axis (angle : ℝ) (axis : V3) :
    Spec.Unit (ofAngleAxis angle axis) ∧
    (1 / 10 ^ 15 ≤ axis.norm → ∀ v, (ofAngleAxis angle axis).transformVector v =
      Spec.rotate (V3.smul (1 / axis.norm) axis) angle v) ∧
    (axis.norm < 1 / 10 ^ 15 → ∀ v, (ofAngleAxis angle axis).transformVector v = v) := by
  refine ⟨?_, fun h v => ?_, fun h v => ?_⟩
  · unfold ofAngleAxis; exact unit_normalized _
  · obtain ⟨h1, h2⟩ := ofAngleAxis_eq (angle := angle) (axis := axis) h
    have hn : axis.norm ≠ 0 := by have := tolerance_pos; intro h0; rw [h0] at h; norm_num at h
    have hu := smul_norm hn
    rw [h1]
    have hc : Real.cos angle = 1 - 2 * Real.sin (angle / 2) ^ 2 := by
      rw [← Real.cos_sq_add_sin_sq (angle / 2)]
      conv_lhs => rw [show angle = 2 * (angle / 2) by ring, Real.cos_two_mul]
      linarith [Real.sin_sq_add_cos_sq (angle / 2)]
    have hs : Real.sin angle = 2 * Real.sin (angle / 2) * Real.cos (angle / 2) := by
      conv_lhs => rw [show angle = 2 * (angle / 2) by ring, Real.sin_two_mul]
    rw [show V3.smul (1 / axis.norm) axis = ⟨axis.x / axis.norm, axis.y / axis.norm, axis.z / axis.norm⟩ by
      unfold V3.smul; congr 1 <;> ring]
    generalize axis.x / axis.norm = a at *
    generalize axis.y / axis.norm = b at *
    generalize axis.z / axis.norm = c at *
    unfold Spec.rotate
    rw [hc, hs]
    have hcs := Real.sin_sq_add_cos_sq (angle / 2)
    ext <;> simp only [transformVector, V3.smul, V3.add, V3.dot, Quat.cross, vec]
    · linear_combination (-2) * Real.sin (angle / 2) ^ 2 * v.x * hu
    · linear_combination (-2) * Real.sin (angle / 2) ^ 2 * v.y * hu
    · linear_combination (-2) * Real.sin (angle / 2) ^ 2 * v.z * hu
  · have h1 : ofAngleAxis angle axis = identity := by
      unfold ofAngleAxis
      rw [if_pos (by exact h)]
      exact normalized_unit (q := ⟨1, 0, 0, 0⟩) (by norm_num [Spec.Unit])
    rw [h1]
    ext <;> simp [transformVector, identity, vec, Quat.cross, V3.add, V3.smul]

/-- C64: `FromTwoVectors` rotates the direction of the first vector to the direction of the second, if they are not
opposite up to the tolerance and long enough. -/
theorem from_two_vectors_partial (a b : V3) (hk : 1 / 10 ^ 7 ≤ a.norm * b.norm)
    (ho : 1 / 10 ^ 15 ≤ a.dot b / (a.norm * b.norm) + 1) :
    ∃ q, fromTwoVectors a b = some q ∧ Spec.Unit q ∧ V3.smul b.norm (q.transformVector a) = V3.smul a.norm b := by
  have hk0 : 0 < a.norm * b.norm := by linarith [show (0 : ℝ) < 1 / 10 ^ 7 by norm_num]
  refine ⟨_, ?_, unit_normalized _, halfway ?_⟩
  · unfold fromTwoVectors
    simp only
    rw [k_eq, if_neg]
    rintro ⟨_, h⟩
    rw [abs_of_nonneg (by linarith [show (0 : ℝ) < 1 / 10 ^ 15 by norm_num])] at h
    unfold tolerance at h
    linarith
  · have h1 : 1 / 10 ^ 15 * (a.norm * b.norm) ≤ a.dot b + a.norm * b.norm := by
      have : (a.dot b / (a.norm * b.norm) + 1) * (a.norm * b.norm) = a.dot b + a.norm * b.norm := by
        rw [add_mul, div_mul_cancel₀ _ hk0.ne', one_mul]
      rw [← this]
      exact mul_le_mul_of_nonneg_right ho hk0.le
    apply Real.le_sqrt_of_sq_le
    have h2 := cross_norm_sq a b
    rw [← Quat.norm_sq a, ← Quat.norm_sq b] at h2
    simp only
    have h3 : (1 / 10 ^ 15 : ℝ) ^ 2 ≤ 2 * (a.norm * b.norm) * (1 / 10 ^ 15 * (a.norm * b.norm)) := by nlinarith
    have h4 : 2 * (a.norm * b.norm) * (1 / 10 ^ 15 * (a.norm * b.norm)) ≤ 2 * (a.norm * b.norm) * (a.dot b + a.norm * b.norm) :=
      mul_le_mul_of_nonneg_left h1 (by linarith)
    unfold tolerance
    nlinarith

/-- C64: if the vectors are opposite up to the tolerance, the first is turned around, unless it points down the third axis:
then the result is not a quaternion. -/
theorem from_two_vectors_opposite (a b : V3) (hk : 0 < a.norm * b.norm)
    (ho : |a.dot b / (a.norm * b.norm) + 1| < 1 / 10 ^ 15) :
    (fromTwoVectors a b = none ↔ a.x = 0 ∧ a.y = 0 ∧ a.z < 0) ∧
    ∀ q, fromTwoVectors a b = some q → Spec.Unit q ∧ q.transformVector a = V3.smul (-1) a := by
  have hna : a.norm ≠ 0 := by intro h; rw [h, zero_mul] at hk; exact lt_irrefl _ hk
  have e : fromTwoVectors a b = (Quat.cross a (otherAxis a)).normalized.map fun axis => ⟨0, axis.x, axis.y, axis.z⟩ := by
    unfold fromTwoVectors
    simp only
    rw [k_eq, if_pos ⟨hk.ne', ho⟩]
  rw [e, ← otherAxis_zero hna]
  unfold V3.normalized
  by_cases h : (Quat.cross a (otherAxis a)).norm = 0
  · simp [h]
  · rw [if_neg h]
    refine ⟨by simp [h], ?_⟩
    intro q hq
    simp only [Option.map_some, Option.some.injEq] at hq
    subst hq
    have hu := smul_norm h
    simp only [V3.smul, one_div_mul_eq_div]
    constructor
    · unfold Spec.Unit
      simp only
      linarith
    · have := half_turn (u := ⟨(Quat.cross a (otherAxis a)).x / (Quat.cross a (otherAxis a)).norm,
        (Quat.cross a (otherAxis a)).y / (Quat.cross a (otherAxis a)).norm,
        (Quat.cross a (otherAxis a)).z / (Quat.cross a (otherAxis a)).norm⟩) (a := a) hu (by
          unfold V3.dot
          simp only
          field_simp
          unfold Quat.cross
          simp only
          ring)
      rw [this]
      rfl

/-- C64 fails: there is no rotation from straight down to straight up. -/
theorem from_two_vectors_down : fromTwoVectors ⟨0, 0, -1⟩ ⟨0, 0, 1⟩ = none := by
  have h1 : V3.norm ⟨0, 0, -1⟩ = 1 := by norm_num [V3.norm, V3.dot]
  have h2 : V3.norm ⟨0, 0, 1⟩ = 1 := by norm_num [V3.norm, V3.dot]
  refine ((from_two_vectors_opposite _ _ ?_ ?_).1).2 ?_
  · rw [h1, h2]; norm_num
  · rw [h1, h2]; norm_num [V3.dot]
  · norm_num

/-- C64 fails: the rotation between two short orthogonal vectors is the identity. -/
theorem from_two_vectors_short :
    fromTwoVectors ⟨1 / 10 ^ 8, 0, 0⟩ ⟨0, 1 / 10 ^ 8, 0⟩ = some identity := by
  have h1 : V3.norm ⟨1 / 10 ^ 8, 0, 0⟩ = 1 / 10 ^ 8 := by
    unfold V3.norm V3.dot
    simp only [mul_zero, add_zero]
    exact Real.sqrt_mul_self (by norm_num)
  have h2 : V3.norm ⟨0, 1 / 10 ^ 8, 0⟩ = 1 / 10 ^ 8 := by
    unfold V3.norm V3.dot
    simp only [mul_zero, add_zero, zero_add]
    exact Real.sqrt_mul_self (by norm_num)
  unfold fromTwoVectors
  simp only
  rw [k_eq, h1, h2, if_neg (by norm_num [V3.dot, tolerance])]
  unfold normalized
  rw [if_pos]
  unfold Quaternion.norm
  rw [Real.sqrt_lt' (by unfold tolerance; norm_num)]
  norm_num [V3.dot, Quat.cross, tolerance]

example : ∃ q, fromTwoVectors ⟨1, 2, 3⟩ ⟨-3, 0, 1⟩ = some q := by
  have h1 : 1 ≤ V3.norm ⟨1, 2, 3⟩ := by
    unfold V3.norm V3.dot; rw [Real.one_le_sqrt]; norm_num
  have h2 : 1 ≤ V3.norm ⟨-3, 0, 1⟩ := by
    unfold V3.norm V3.dot; rw [Real.one_le_sqrt]; norm_num
  obtain ⟨q, hq, _⟩ := from_two_vectors_partial ⟨1, 2, 3⟩ ⟨-3, 0, 1⟩ (by nlinarith) (by norm_num [V3.dot])
  exact ⟨q, hq⟩

/-- C65: interpolation between unit quaternions that are not the same up to the tolerance gives unit quaternions, moves
from the first to the second, or its opposite, which is the same rotation, and at a constant angular speed. -/
theorem slerp_arc (p q : Quaternion) (hp : Spec.Unit p) (hq : Spec.Unit q) (hd : |p.dot q| < 1 - 1 / 10 ^ 15) (t : ℝ) :
    Spec.Unit (p.slerp t q) ∧ p.dot (p.slerp t q) = Real.cos (t * Real.arccos |p.dot q|) ∧
    |q.dot (p.slerp t q)| = |Real.cos ((1 - t) * Real.arccos |p.dot q|)| ∧
    (0 ≤ t → t ≤ 1 → p.angularDistance (p.slerp t q) = t * p.angularDistance q ∧
      q.angularDistance (p.slerp t q) = (1 - t) * p.angularDistance q) := by
  obtain ⟨q', hq', hqq, hdot, s0, s1, hs, -, e⟩ := slerp_eq (p := p) t hq
  obtain ⟨rfl, rfl⟩ := hs hd
  have hd0 := abs_nonneg (p.dot q)
  have hd1 : |p.dot q| < 1 := by linarith [show (0 : ℝ) < 1 / 10 ^ 15 by norm_num]
  have hcos : Real.cos (Real.arccos |p.dot q|) = |p.dot q| := Real.cos_arccos (by linarith) hd1.le
  have hsin : Real.sin (Real.arccos |p.dot q|) ≠ 0 := by
    rw [Real.sin_arccos]
    exact (Real.sqrt_pos.2 (by nlinarith)).ne'
  obtain ⟨a1, a2, a3⟩ := slerp_sines (θ := Real.arccos |p.dot q|) (t := t) hsin
  have hpp : p.dot p = 1 := by unfold Spec.Unit at hp; unfold dot; linarith
  have hqq' : q'.dot q' = 1 := by unfold Spec.Unit at hq'; unfold dot; linarith
  generalize hs0 : Real.sin ((1 - t) * Real.arccos |p.dot q|) / Real.sin (Real.arccos |p.dot q|) = s0 at *
  generalize hs1 : Real.sin (t * Real.arccos |p.dot q|) / Real.sin (Real.arccos |p.dot q|) = s1 at *
  rw [hcos, ← hdot] at a1 a2 a3
  have b1 : Spec.Unit (p.slerp t q) := by
    rw [e]
    unfold Spec.Unit
    simp only
    unfold dot at a1 hpp hqq'
    linear_combination a1 + s0 ^ 2 * hpp + s1 ^ 2 * hqq'
  have b2 : p.dot (p.slerp t q) = Real.cos (t * Real.arccos |p.dot q|) := by
    rw [← hdot, ← a2, e]
    unfold dot at hpp ⊢
    simp only
    linear_combination s0 * hpp
  have b3 : q'.dot (p.slerp t q) = Real.cos ((1 - t) * Real.arccos |p.dot q|) := by
    rw [← hdot, ← a3, e]
    unfold dot at hqq' ⊢
    simp only
    linear_combination s1 * hqq'
  have b4 : |q.dot (p.slerp t q)| = |Real.cos ((1 - t) * Real.arccos |p.dot q|)| := by
    rw [← b3]
    rcases hqq with ⟨rfl, _⟩ | ⟨rfl, _⟩
    · rfl
    · rw [neg_dot, abs_neg]
  refine ⟨b1, b2, b4, fun h0 h1 => ?_⟩
  have c0 := Real.arccos_nonneg |p.dot q|
  have c1 : Real.arccos |p.dot q| ≤ Real.pi / 2 := Real.arccos_le_pi_div_two.2 hd0
  have hpi := Real.pi_pos
  have key : ∀ s, 0 ≤ s → s ≤ 1 → Real.arccos |Real.cos (s * Real.arccos |p.dot q|)| = s * Real.arccos |p.dot q| := by
    intro s s0 s1
    have d0 : 0 ≤ s * Real.arccos |p.dot q| := mul_nonneg s0 c0
    have d1 : s * Real.arccos |p.dot q| ≤ Real.pi / 2 := by nlinarith
    rw [abs_of_nonneg (Real.cos_nonneg_of_mem_Icc ⟨by linarith, d1⟩), Real.arccos_cos d0 (by linarith)]
  rw [angularDistance_eq hp b1, angularDistance_eq hq b1, angularDistance_eq hp hq, b2, b4, key t h0 h1,
    key (1 - t) (by linarith) (by linarith)]
  constructor <;> ring

/-- C65: at the ends, interpolation is exact. -/
theorem slerp_ends (p q : Quaternion) (hq : Spec.Unit q) :
    p.slerp 0 q = p ∧ (0 ≤ p.dot q → p.slerp 1 q = q) ∧ (p.dot q < 0 → p.slerp 1 q = Spec.neg q) := by
  have hsin : |p.dot q| < 1 - tolerance → Real.sin (Real.arccos |p.dot q|) ≠ 0 := by
    intro h
    rw [Real.sin_arccos]
    have := tolerance_pos
    exact (Real.sqrt_pos.2 (by nlinarith [abs_nonneg (p.dot q)])).ne'
  have key : ∀ t, ∃ q', (q' = q ∧ 0 ≤ p.dot q ∨ q' = Spec.neg q ∧ p.dot q < 0) ∧ ∃ s0 s1, (t = 0 → s0 = 1 ∧ s1 = 0) ∧
      (t = 1 → s0 = 0 ∧ s1 = 1) ∧
      p.slerp t q = ⟨s0 * p.w + s1 * q'.w, s0 * p.x + s1 * q'.x, s0 * p.y + s1 * q'.y, s0 * p.z + s1 * q'.z⟩ := by
    intro t
    obtain ⟨q', _, h1, _, s0, s1, h2, h3, e⟩ := slerp_eq (p := p) t hq
    refine ⟨q', h1, s0, s1, ?_, ?_, e⟩
    · rintro rfl
      by_cases h : |p.dot q| < 1 - tolerance
      · obtain ⟨rfl, rfl⟩ := h2 h
        rw [sub_zero, one_mul, div_self (hsin h), zero_mul, Real.sin_zero, zero_div]
        exact ⟨rfl, rfl⟩
      · obtain ⟨rfl, rfl⟩ := h3 h
        exact ⟨sub_zero 1, rfl⟩
    · rintro rfl
      by_cases h : |p.dot q| < 1 - tolerance
      · obtain ⟨rfl, rfl⟩ := h2 h
        rw [sub_self, one_mul, div_self (hsin h), zero_mul, Real.sin_zero, zero_div]
        exact ⟨rfl, rfl⟩
      · obtain ⟨rfl, rfl⟩ := h3 h
        exact ⟨sub_self 1, rfl⟩
  obtain ⟨q0, _, s0, s1, h0, _, e0⟩ := key 0
  obtain ⟨q1, hq1, r0, r1, _, h1, e1⟩ := key 1
  obtain ⟨rfl, rfl⟩ := h0 rfl
  obtain ⟨rfl, rfl⟩ := h1 rfl
  refine ⟨by rw [e0]; simp, fun h => ?_, fun h => ?_⟩
  · rcases hq1 with ⟨rfl, _⟩ | ⟨_, h'⟩
    · rw [e1]; simp
    · linarith
  · rcases hq1 with ⟨_, h'⟩ | ⟨rfl, _⟩
    · linarith
    · rw [e1]; simp

/-- C65: between quaternions that are the same up to the tolerance, the norm is one up to the tolerance. -/
theorem slerp_near (p q : Quaternion) (hp : Spec.Unit p) (hq : Spec.Unit q) (hd : 1 - 1 / 10 ^ 15 ≤ |p.dot q|) (t : ℝ)
    (h0 : 0 ≤ t) (h1 : t ≤ 1) :
    1 - 1 / 10 ^ 15 ≤ (p.slerp t q).squaredNorm ∧ (p.slerp t q).squaredNorm ≤ 1 := by
  obtain ⟨q', hq', -, hdot, s0, s1, -, hs, e⟩ := slerp_eq (p := p) t hq
  obtain ⟨rfl, rfl⟩ := hs (not_lt.2 hd)
  have hle := abs_dot_le hp hq
  have hpp : p.dot p = 1 := by unfold Spec.Unit at hp; unfold dot; linarith
  have hqq' : q'.dot q' = 1 := by unfold Spec.Unit at hq'; unfold dot; linarith
  have : (p.slerp s1 q).squaredNorm = 1 - 2 * (s1 * (1 - s1)) * (1 - |p.dot q|) := by
    rw [e, ← hdot]
    unfold squaredNorm dot at *
    simp only
    linear_combination (1 - s1) ^ 2 * hpp + s1 ^ 2 * hqq'
  rw [this]
  have ht : 0 ≤ s1 * (1 - s1) := mul_nonneg h0 (by linarith)
  have ht2 : s1 * (1 - s1) ≤ 1 / 4 := by nlinarith [sq_nonneg (s1 - 1 / 2)]
  constructor <;> nlinarith

example : |someRotation.dot identity| < 1 - 1 / 10 ^ 15 := by
  norm_num [someRotation, identity, dot]

/-- C66: `AngularDistance` of unit quaternions is a distance of rotations: it is between zero and `π`, zero exactly for
quaternions that transform all vectors in the same way, symmetric, and the triangle inequality holds. -/
theorem angular_distance_metric (p q r : Quaternion) (hp : Spec.Unit p) (hq : Spec.Unit q) (hr : Spec.Unit r) :
    0 ≤ p.angularDistance q ∧ p.angularDistance q ≤ Real.pi ∧ p.angularDistance q = q.angularDistance p ∧
    (p.angularDistance q = 0 ↔ ∀ v, p.transformVector v = q.transformVector v) ∧
    p.angularDistance r ≤ p.angularDistance q + q.angularDistance r := by
  have h1 := abs_dot_le hp hq
  have h0 := abs_nonneg (p.dot q)
  have e := angularDistance_eq hp hq
  refine ⟨?_, ?_, ?_, ?_, angularDistance_triangle hp hq hr⟩
  · rw [e]; linarith [Real.arccos_nonneg |p.dot q|]
  · rw [e]; linarith [Real.arccos_le_pi_div_two.2 h0]
  · rw [e, angularDistance_eq hq hp, dot_comm]
  · rw [transform_eq_iff hp hq, matrix_eq_iff hp hq, e]
    constructor
    · intro h
      have h2 : Real.arccos |p.dot q| = 0 := by linarith
      rw [Real.arccos_eq_zero] at h2
      apply eq_or_neg_of_dot hp hq
      rw [← sq_abs, le_antisymm h1 h2]
      norm_num
    · intro h
      have h2 : |p.dot q| = 1 := by
        have hqq : q.dot q = 1 := by unfold Spec.Unit at hq; unfold dot; linarith
        rcases h with rfl | rfl
        · rw [hqq, abs_one]
        · rw [neg_dot, abs_neg, hqq, abs_one]
      rw [h2, Real.arccos_one, mul_zero]

/-- C66: `AngularDistance` is the angle of the rotation from one to the other: the trace of its matrix is
`1 + 2 cos`. -/
theorem angular_distance_angle (p q : Quaternion) (hp : Spec.Unit p) (hq : Spec.Unit q) :
    let m := p.toRotationMatrix.transpose.mul q.toRotationMatrix
    m.xx + m.yy + m.zz = 1 + 2 * Real.cos (p.angularDistance q) := by
  have h1 := abs_dot_le hp hq
  have h0 := abs_nonneg (p.dot q)
  rw [angularDistance_eq hp hq, Real.cos_two_mul, Real.cos_arccos (by linarith) h1, sq_abs,
    toRotationMatrix_unit hp, toRotationMatrix_unit hq]
  unfold Spec.Unit at hp hq
  have hw : p.w ^ 2 = 1 - p.x ^ 2 - p.y ^ 2 - p.z ^ 2 := by linarith
  have hw' : q.w ^ 2 = 1 - q.x ^ 2 - q.y ^ 2 - q.z ^ 2 := by linarith
  simp only [M3.mul, M3.transpose, dot]
  ring_nf
  simp only [hw, hw']
  ring

end Maliput.Props
