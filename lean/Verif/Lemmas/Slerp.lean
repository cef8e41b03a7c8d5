import Mathlib.Geometry.Euclidean.Angle.Unoriented.TriangleInequality
import Mathlib.Analysis.InnerProductSpace.PiL2
import Verif.Lemmas.Rotation

set_option autoImplicit false

/-! Lemmas about angular distances, interpolation and the rotation between two vectors. -/
namespace Maliput.Quat

open Maliput.Linear Quaternion

theorem atan2_polar {r θ : ℝ} (hr : 0 < r) (h1 : -Real.pi < θ) (h2 : θ ≤ Real.pi) :
    atan2 (r * Real.sin θ) (r * Real.cos θ) = θ := by
  have h := Complex.arg_mul_cos_add_sin_mul_I hr (θ := θ) ⟨h1, h2⟩
  have e : (⟨r * Real.cos θ, r * Real.sin θ⟩ : ℂ) = r * (Complex.cos θ + Complex.sin θ * Complex.I) := by
    apply Complex.ext <;> simp [Complex.cos_ofReal_re, Complex.sin_ofReal_re, Complex.sin_ofReal_im, Complex.cos_ofReal_im]
  unfold atan2
  rw [e, h]

theorem dot_sq_le {p q : Quaternion} (hp : Spec.Unit p) (hq : Spec.Unit q) : p.dot q ^ 2 ≤ 1 := by
  unfold Spec.Unit at hp hq
  unfold dot
  nlinarith [sq_nonneg (p.w * q.x - p.x * q.w), sq_nonneg (p.w * q.y - p.y * q.w), sq_nonneg (p.w * q.z - p.z * q.w),
    sq_nonneg (p.x * q.y - p.y * q.x), sq_nonneg (p.x * q.z - p.z * q.x), sq_nonneg (p.y * q.z - p.z * q.y)]

theorem abs_dot_le {p q : Quaternion} (hp : Spec.Unit p) (hq : Spec.Unit q) : |p.dot q| ≤ 1 := by
  have := dot_sq_le hp hq
  rw [← sq_abs] at this
  nlinarith [abs_nonneg (p.dot q)]

theorem angularDistance_eq {p q : Quaternion} (hp : Spec.Unit p) (hq : Spec.Unit q) :
    p.angularDistance q = 2 * Real.arccos |p.dot q| := by
  have hu := unit_mul hp (unit_conjugate hq)
  have hw : (p.mul q.conjugate).w = p.dot q := by simp only [mul, conjugate, dot]; ring
  unfold angularDistance
  simp only
  rw [hw]
  congr 1
  have h1 := abs_dot_le hp hq
  have h0 := abs_nonneg (p.dot q)
  have hn : (p.mul q.conjugate).vec.norm = Real.sin (Real.arccos |p.dot q|) := by
    rw [Real.sin_arccos, sq_abs, V3.norm]
    congr 1
    unfold Spec.Unit at hu
    rw [hw] at hu
    unfold V3.dot vec
    simp only
    linarith
  have hc : |p.dot q| = Real.cos (Real.arccos |p.dot q|) := (Real.cos_arccos (by linarith) h1).symm
  rw [hn]
  conv_lhs => rw [hc]
  rw [Real.arccos_cos (Real.arccos_nonneg _) (Real.arccos_le_pi _)]
  have h3 := atan2_polar (r := 1) one_pos (θ := Real.arccos |p.dot q|) (by have := Real.arccos_nonneg |p.dot q|; linarith [Real.pi_pos])
    (Real.arccos_le_pi _)
  rwa [one_mul, one_mul] at h3

theorem dot_comm (p q : Quaternion) : p.dot q = q.dot p := by unfold dot; ring

/-- The vector of four numbers of a quaternion. -/
noncomputable def toE (q : Quaternion) : EuclideanSpace ℝ (Fin 4) := !₂[q.w, q.x, q.y, q.z]

theorem inner_toE (p q : Quaternion) : inner ℝ (toE p) (toE q) = p.dot q := by
  simp [toE, dot, PiLp.inner_apply, Fin.sum_univ_four]
  ring

theorem norm_toE {q : Quaternion} (h : Spec.Unit q) : ‖toE q‖ = 1 := by
  have h1 : ‖toE q‖ ^ 2 = 1 := by
    rw [← real_inner_self_eq_norm_sq, inner_toE]
    unfold Spec.Unit at h
    unfold dot
    linarith
  nlinarith [_root_.norm_nonneg (toE q)]

theorem arccos_dot_triangle {p q r : Quaternion} (hp : Spec.Unit p) (hq : Spec.Unit q) (hr : Spec.Unit r) :
    Real.arccos (p.dot r) ≤ Real.arccos (p.dot q) + Real.arccos (q.dot r) := by
  have h := InnerProductGeometry.angle_le_angle_add_angle (toE p) (toE q) (toE r)
  simpa [InnerProductGeometry.angle, inner_toE, norm_toE hp, norm_toE hq, norm_toE hr] using h

theorem dot_neg (p q : Quaternion) : p.dot (Spec.neg q) = -p.dot q := by unfold dot Spec.neg; ring

theorem neg_dot (p q : Quaternion) : (Spec.neg p).dot q = -p.dot q := by unfold dot Spec.neg; ring

/-- One of a quaternion and its opposite is on the side of another. -/
theorem exists_side (p q : Quaternion) (hq : Spec.Unit q) : ∃ q', Spec.Unit q' ∧ (q' = q ∨ q' = Spec.neg q) ∧ p.dot q' = |p.dot q| := by
  rcases le_total 0 (p.dot q) with h | h
  · exact ⟨q, hq, Or.inl rfl, (abs_of_nonneg h).symm⟩
  · exact ⟨Spec.neg q, unit_neg hq, Or.inr rfl, by rw [dot_neg, abs_of_nonpos h]⟩

theorem angularDistance_triangle {p q r : Quaternion} (hp : Spec.Unit p) (hq : Spec.Unit q) (hr : Spec.Unit r) :
    p.angularDistance r ≤ p.angularDistance q + q.angularDistance r := by
  rw [angularDistance_eq hp hr, angularDistance_eq hp hq, angularDistance_eq hq hr]
  obtain ⟨q', hq', hqq, e1⟩ := exists_side p q hq
  obtain ⟨r', hr', hrr, e2⟩ := exists_side q' r hr
  have h := arccos_dot_triangle hp hq' hr'
  have h1 : |q'.dot r| = |q.dot r| := by
    rcases hqq with rfl | rfl
    · rfl
    · rw [neg_dot, abs_neg]
  have h2 : |p.dot r'| = |p.dot r| := by
    rcases hrr with rfl | rfl
    · rfl
    · rw [dot_neg, abs_neg]
  have h3 : Real.arccos |p.dot r| ≤ Real.arccos (p.dot r') := by
    rw [← h2]
    exact Real.arccos_le_arccos (le_abs_self _)
  rw [e1, e2, h1] at h
  linarith

theorem slerp_eq {p q : Quaternion} (t : ℝ) (hq : Spec.Unit q) :
    ∃ q', Spec.Unit q' ∧ (q' = q ∧ 0 ≤ p.dot q ∨ q' = Spec.neg q ∧ p.dot q < 0) ∧ p.dot q' = |p.dot q| ∧
    ∃ s0 s1, (|p.dot q| < 1 - tolerance → s0 = Real.sin ((1 - t) * Real.arccos |p.dot q|) / Real.sin (Real.arccos |p.dot q|) ∧
      s1 = Real.sin (t * Real.arccos |p.dot q|) / Real.sin (Real.arccos |p.dot q|)) ∧
    (¬|p.dot q| < 1 - tolerance → s0 = 1 - t ∧ s1 = t) ∧
    p.slerp t q = ⟨s0 * p.w + s1 * q'.w, s0 * p.x + s1 * q'.x, s0 * p.y + s1 * q'.y, s0 * p.z + s1 * q'.z⟩ := by
  by_cases hd : p.dot q < 0
  · refine ⟨Spec.neg q, unit_neg hq, Or.inr ⟨rfl, hd⟩, by rw [dot_neg, abs_of_neg hd], ?_⟩
    by_cases h : |p.dot q| < 1 - tolerance
    · refine ⟨_, _, fun _ => ⟨rfl, rfl⟩, fun h' => absurd h h', ?_⟩
      simp only [slerp, if_pos hd, if_pos h, Spec.neg, neg_mul, mul_neg]
    · refine ⟨_, _, fun h' => absurd h' h, fun _ => ⟨rfl, rfl⟩, ?_⟩
      simp only [slerp, if_pos hd, if_neg h, Spec.neg, neg_mul, mul_neg]
  · refine ⟨q, hq, Or.inl ⟨rfl, not_lt.1 hd⟩, (abs_of_nonneg (not_lt.1 hd)).symm, ?_⟩
    by_cases h : |p.dot q| < 1 - tolerance
    · refine ⟨_, _, fun _ => ⟨rfl, rfl⟩, fun h' => absurd h h', ?_⟩
      simp only [slerp, if_neg hd, if_pos h]
    · refine ⟨_, _, fun h' => absurd h' h, fun _ => ⟨rfl, rfl⟩, ?_⟩
      simp only [slerp, if_neg hd, if_neg h]

/-- The sines of an interpolation. -/
theorem slerp_sines {θ t : ℝ} (h : Real.sin θ ≠ 0) :
    (Real.sin ((1 - t) * θ) / Real.sin θ) ^ 2 + (Real.sin (t * θ) / Real.sin θ) ^ 2 +
      2 * (Real.sin ((1 - t) * θ) / Real.sin θ) * (Real.sin (t * θ) / Real.sin θ) * Real.cos θ = 1 ∧
    Real.sin ((1 - t) * θ) / Real.sin θ + Real.sin (t * θ) / Real.sin θ * Real.cos θ = Real.cos (t * θ) ∧
    Real.sin ((1 - t) * θ) / Real.sin θ * Real.cos θ + Real.sin (t * θ) / Real.sin θ = Real.cos ((1 - t) * θ) := by
  have e : (1 - t) * θ = θ - t * θ := by ring
  have h1 : Real.sin ((1 - t) * θ) = Real.sin θ * Real.cos (t * θ) - Real.cos θ * Real.sin (t * θ) := by
    rw [e, Real.sin_sub]
  have h2 : Real.cos ((1 - t) * θ) = Real.cos θ * Real.cos (t * θ) + Real.sin θ * Real.sin (t * θ) := by
    rw [e, Real.cos_sub]
  have c1 := Real.sin_sq_add_cos_sq θ
  have c2 := Real.sin_sq_add_cos_sq (t * θ)
  rw [h1, h2]
  refine ⟨?_, ?_, ?_⟩
  · field_simp
    linear_combination Real.sin θ ^ 2 * c2 - Real.sin (t * θ) ^ 2 * c1
  · field_simp
    ring
  · field_simp
    linear_combination Real.sin (t * θ) * -c1

theorem cross_norm_sq (a b : V3) : (cross a b).x ^ 2 + (cross a b).y ^ 2 + (cross a b).z ^ 2 =
    (a.x ^ 2 + a.y ^ 2 + a.z ^ 2) * (b.x ^ 2 + b.y ^ 2 + b.z ^ 2) - a.dot b ^ 2 := by
  unfold cross V3.dot
  simp only
  ring

theorem k_eq (a b : V3) : Real.sqrt (a.norm * a.norm * b.norm * b.norm) = a.norm * b.norm := by
  rw [show a.norm * a.norm * b.norm * b.norm = (a.norm * b.norm) ^ 2 by ring]
  exact Real.sqrt_sq (mul_nonneg (norm_nonneg a) (norm_nonneg b))

theorem dot_abs_le (a b : V3) : |a.dot b| ≤ a.norm * b.norm := by
  apply abs_le_of_sq_le_sq _ (mul_nonneg (norm_nonneg a) (norm_nonneg b))
  rw [mul_pow, norm_sq, norm_sq]
  have := cross_norm_sq a b
  nlinarith [sq_nonneg (cross a b).x, sq_nonneg (cross a b).y, sq_nonneg (cross a b).z]

/-- The quaternion halfway turns one vector into the direction of the other. -/
theorem halfway {a b : V3} (h : tolerance ≤ Quaternion.norm ⟨a.dot b + a.norm * b.norm, (cross a b).x, (cross a b).y, (cross a b).z⟩) :
    V3.smul b.norm ((normalized ⟨a.dot b + a.norm * b.norm, (cross a b).x, (cross a b).y, (cross a b).z⟩).transformVector a) =
      V3.smul a.norm b := by
  set N := Quaternion.norm ⟨a.dot b + a.norm * b.norm, (cross a b).x, (cross a b).y, (cross a b).z⟩ with hN
  have hN0 : N ≠ 0 := by have := tolerance_pos; intro h0; rw [h0] at h; linarith
  have hA := norm_sq a
  have hB := norm_sq b
  have hN2 : N ^ 2 = 2 * (a.norm * b.norm) * (a.norm * b.norm + a.dot b) := by
    rw [hN, Quaternion.norm_sq]
    have := cross_norm_sq a b
    simp only
    rw [← hA, ← hB] at this
    linarith
  have hi : (1 / N) ^ 2 * (2 * (a.norm * b.norm) * (a.norm * b.norm + a.dot b)) = 1 := by
    rw [← hN2]
    field_simp
  unfold normalized
  rw [if_neg (by rw [← hN]; exact not_lt.2 h), ← hN]
  simp only [div_eq_mul_inv _ N]
  rw [one_div] at hi
  generalize N⁻¹ = i at hi ⊢
  generalize a.norm = na at *
  generalize b.norm = nb at *
  clear_value N
  unfold V3.dot at *
  ext <;> simp only [transformVector, V3.smul, V3.add, cross, vec]
  · linear_combination (b.x * na - a.x * nb) * hi +
      2 * nb * i ^ 2 * (-(a.x * b.x + a.y * b.y + a.z * b.z + na * nb) * b.x * hA +
        a.x * (hA * nb ^ 2 + (a.x ^ 2 + a.y ^ 2 + a.z ^ 2) * hB))
  · linear_combination (b.y * na - a.y * nb) * hi +
      2 * nb * i ^ 2 * (-(a.x * b.x + a.y * b.y + a.z * b.z + na * nb) * b.y * hA +
        a.y * (hA * nb ^ 2 + (a.x ^ 2 + a.y ^ 2 + a.z ^ 2) * hB))
  · linear_combination (b.z * na - a.z * nb) * hi +
      2 * nb * i ^ 2 * (-(a.x * b.x + a.y * b.y + a.z * b.z + na * nb) * b.z * hA +
        a.z * (hA * nb ^ 2 + (a.x ^ 2 + a.y ^ 2 + a.z ^ 2) * hB))

/-- Half a turn about an axis that is orthogonal to a vector turns it around. -/
theorem half_turn {u a : V3} (hu : u.x ^ 2 + u.y ^ 2 + u.z ^ 2 = 1) (ha : u.dot a = 0) :
    (⟨0, u.x, u.y, u.z⟩ : Quaternion).transformVector a = V3.smul (-1) a := by
  unfold V3.dot at ha
  ext <;> simp only [transformVector, V3.smul, V3.add, cross, vec]
  · linear_combination 2 * u.x * ha - 2 * a.x * hu
  · linear_combination 2 * u.y * ha - 2 * a.y * hu
  · linear_combination 2 * u.z * ha - 2 * a.z * hu

theorem norm_eq_zero {v : V3} : v.norm = 0 ↔ v.x = 0 ∧ v.y = 0 ∧ v.z = 0 := by
  have h := norm_sq v
  constructor
  · intro h0
    rw [h0] at h
    have hx := sq_nonneg v.x
    have hy := sq_nonneg v.y
    have hz := sq_nonneg v.z
    refine ⟨pow_eq_zero_iff two_ne_zero |>.1 (by linarith : v.x ^ 2 = 0), pow_eq_zero_iff two_ne_zero |>.1 (by linarith : v.y ^ 2 = 0),
      pow_eq_zero_iff two_ne_zero |>.1 (by linarith : v.z ^ 2 = 0)⟩
  · rintro ⟨h1, h2, h3⟩
    rw [h1, h2, h3] at h
    exact pow_eq_zero_iff two_ne_zero |>.1 (by linarith : v.norm ^ 2 = 0)

/-- The axis for opposite vectors is useless exactly for vectors down the third axis. -/
theorem otherAxis_zero {a : V3} (ha : a.norm ≠ 0) :
    (cross a (otherAxis a)).norm = 0 ↔ a.x = 0 ∧ a.y = 0 ∧ a.z < 0 := by
  rw [norm_eq_zero]
  have ha' : ¬(a.x = 0 ∧ a.y = 0 ∧ a.z = 0) := fun h => ha (norm_eq_zero.2 h)
  unfold otherAxis
  split_ifs with h1 h2 h2 <;> simp only [cross]
  · have : a.y ≠ 0 := by
      intro h0; rw [h0, abs_zero] at h1; exact absurd h1 (not_lt.2 (abs_nonneg _))
    constructor
    · rintro ⟨_, _, h⟩; exact absurd (by linarith) this
    · rintro ⟨_, h, _⟩; exact absurd h this
  · have : a.y ≠ 0 := by
      intro h0; rw [h0, abs_zero] at h1; exact absurd h1 (not_lt.2 (abs_nonneg _))
    constructor
    · rintro ⟨h, _, _⟩; exact absurd (by linarith) this
    · rintro ⟨_, h, _⟩; exact absurd h this
  · constructor
    · rintro ⟨h3, _, h4⟩
      have hx : a.x = 0 := by linarith
      have hz : a.z = 0 := by linarith
      rw [hx, abs_zero] at h1
      have hy : a.y = 0 := abs_eq_zero.1 (le_antisymm (not_lt.1 h1) (abs_nonneg _))
      exact absurd ⟨hx, hy, hz⟩ ha'
    · rintro ⟨_, hy, hz⟩
      rw [hy] at h2
      linarith
  · constructor
    · rintro ⟨h3, h4, _⟩
      have hy : a.y = 0 := by linarith
      have hx : a.x = 0 := by linarith
      refine ⟨hx, hy, lt_of_le_of_ne (by rw [hy] at h2; exact not_lt.1 h2) fun hz => ha' ⟨hx, hy, hz⟩⟩
    · rintro ⟨hx, hy, _⟩
      rw [hx, hy]
      simp

end Maliput.Quat
