import Mathlib.Analysis.SpecialFunctions.Trigonometric.Deriv
import Verif.Lemmas.Slerp

set_option autoImplicit false

/-! Lemmas about roll, pitch and yaw. -/
namespace Maliput.Quat.RollPitchYaw

open Maliput.Linear Quaternion
open Real (sin cos)

theorem unit_toQuaternion (a : RollPitchYaw) : Spec.Unit a.toQuaternion := by
  unfold Spec.Unit toQuaternion
  simp only
  have h0 := Real.sin_sq_add_cos_sq (a.roll / 2)
  have h1 := Real.sin_sq_add_cos_sq (a.pitch / 2)
  have h2 := Real.sin_sq_add_cos_sq (a.yaw / 2)
  generalize sin (a.roll / 2) = s0 at *
  generalize cos (a.roll / 2) = c0 at *
  generalize sin (a.pitch / 2) = s1 at *
  generalize cos (a.pitch / 2) = c1 at *
  generalize sin (a.yaw / 2) = s2 at *
  generalize cos (a.yaw / 2) = c2 at *
  linear_combination (s1 ^ 2 + c1 ^ 2) * (s2 ^ 2 + c2 ^ 2) * h0 + (s2 ^ 2 + c2 ^ 2) * h1 + h2

theorem toMatrix_eq (a : RollPitchYaw) : a.toQuaternion.toRotationMatrix = a.toMatrix := by
  rw [toRotationMatrix_unit (unit_toQuaternion a)]
  have d : ∀ x : ℝ, sin x = 2 * sin (x / 2) * cos (x / 2) ∧ cos x = cos (x / 2) ^ 2 - sin (x / 2) ^ 2 ∧
      cos (x / 2) ^ 2 = 1 - sin (x / 2) ^ 2 := by
    intro x
    have h := Real.sin_sq_add_cos_sq (x / 2)
    refine ⟨?_, ?_, by linarith⟩
    · conv_lhs => rw [show x = 2 * (x / 2) by ring, Real.sin_two_mul]
    · conv_lhs => rw [show x = 2 * (x / 2) by ring, Real.cos_two_mul]
      linarith
  obtain ⟨a1, a2, a3⟩ := d a.roll
  obtain ⟨b1, b2, b3⟩ := d a.pitch
  obtain ⟨e1, e2, e3⟩ := d a.yaw
  unfold toMatrix toQuaternion
  rw [a1, a2, b1, b2, e1, e2]
  generalize sin (a.roll / 2) = s0 at *
  generalize cos (a.roll / 2) = c0 at *
  generalize sin (a.pitch / 2) = s1 at *
  generalize cos (a.pitch / 2) = c1 at *
  generalize sin (a.yaw / 2) = s2 at *
  generalize cos (a.yaw / 2) = c2 at *
  ext <;> simp only <;> ring_nf <;> (try simp only [a3, b3, e3]) <;> ring

theorem hyp_arg (x y : ℝ) : Real.sqrt (x ^ 2 + y ^ 2) * cos (atan2 y x) = x ∧ Real.sqrt (x ^ 2 + y ^ 2) * sin (atan2 y x) = y := by
  have hn : ‖(⟨x, y⟩ : ℂ)‖ = Real.sqrt (x ^ 2 + y ^ 2) := by
    rw [Complex.norm_def, Complex.normSq_mk]
    congr 1
    ring
  unfold atan2
  rw [← hn]
  exact ⟨Complex.norm_mul_cos_arg _, Complex.norm_mul_sin_arg _⟩

theorem wrap_eq (x : ℝ) (h1 : -(2 * Real.pi) ≤ x) (h2 : x ≤ 2 * Real.pi) :
    -Real.pi ≤ wrap x ∧ wrap x ≤ Real.pi ∧ (wrap x = x ∨ wrap x = x - 2 * Real.pi ∨ wrap x = x + 2 * Real.pi) := by
  have hp := Real.pi_pos
  unfold wrap
  simp only
  split_ifs with h3 h4 h4
  · linarith
  · exact ⟨by linarith, by linarith, Or.inr (Or.inl rfl)⟩
  · exact ⟨by linarith, by linarith, Or.inr (Or.inr rfl)⟩
  · exact ⟨by linarith, by linarith, Or.inl rfl⟩

theorem wrap_half (x : ℝ) (h1 : -(2 * Real.pi) ≤ x) (h2 : x ≤ 2 * Real.pi) :
    ∃ k : ℝ, (k = 1 ∨ k = -1) ∧ cos (wrap x / 2) = k * cos (x / 2) ∧ sin (wrap x / 2) = k * sin (x / 2) := by
  obtain ⟨_, _, h | h | h⟩ := wrap_eq x h1 h2
  · exact ⟨1, Or.inl rfl, by rw [h, one_mul], by rw [h, one_mul]⟩
  · refine ⟨-1, Or.inr rfl, ?_, ?_⟩
    · rw [h, show (x - 2 * Real.pi) / 2 = x / 2 - Real.pi by ring, Real.cos_sub_pi]; ring
    · rw [h, show (x - 2 * Real.pi) / 2 = x / 2 - Real.pi by ring, Real.sin_sub_pi]; ring
  · refine ⟨-1, Or.inr rfl, ?_, ?_⟩
    · rw [h, show (x + 2 * Real.pi) / 2 = x / 2 + Real.pi by ring, Real.cos_add_pi]; ring
    · rw [h, show (x + 2 * Real.pi) / 2 = x / 2 + Real.pi by ring, Real.sin_add_pi]; ring

theorem halfAngle_range (y x : ℝ) : -Real.pi < halfAngle y x ∧ halfAngle y x ≤ Real.pi := by
  unfold halfAngle
  split
  · exact ⟨by linarith [Real.pi_pos], Real.pi_pos.le⟩
  · exact ⟨Complex.neg_pi_lt_arg _, Complex.arg_le_pi _⟩

/-- The pitch of a unit quaternion. -/
theorem pitch_spec {q : Quaternion} (h : Spec.Unit q) :
    (ofQuaternion q).pitch = Real.arcsin (2 * (q.w * q.y - q.x * q.z)) ∧ |2 * (q.w * q.y - q.x * q.z)| ≤ 1 := by
  have hr := (isRotation_of_unit h).ortho
  have hzx : q.toRotationMatrix.zx = -(2 * (q.w * q.y - q.x * q.z)) := by
    rw [toRotationMatrix_unit h]; ring
  have hle : |2 * (q.w * q.y - q.x * q.z)| ≤ 1 := by
    have h1 := hr.rzz
    rw [hzx] at h1
    apply abs_le_one_iff_mul_self_le_one.2
    nlinarith [mul_self_nonneg q.toRotationMatrix.zy, mul_self_nonneg q.toRotationMatrix.zz]
  refine ⟨?_, hle⟩
  have hs : ∀ x : ℝ, |x| ≤ 1 → atan2 x (Real.sqrt (1 - x ^ 2)) = Real.arcsin x := by
    intro x hx
    obtain ⟨h1, h2⟩ := abs_le.1 hx
    have e := atan2_polar (r := 1) one_pos (θ := Real.arcsin x) (by linarith [Real.neg_pi_div_two_le_arcsin x, Real.pi_pos])
      (by linarith [Real.arcsin_le_pi_div_two x, Real.pi_pos])
    rwa [one_mul, one_mul, Real.sin_arcsin h1 h2, Real.cos_arcsin] at e
  rw [← hs _ hle]
  unfold ofQuaternion
  simp only
  rw [hzx, neg_neg]
  congr 2
  have h1 := hr.rzz
  have h2 := hr.lxx
  rw [hzx] at h1 h2
  linarith

/-- The quaternion of the angles before they are adjusted. -/
theorem halves {p zA zB rA rB : ℝ} (h1 : cos (p / 2) - sin (p / 2) = rA) (h2 : cos (p / 2) + sin (p / 2) = rB)
    (k l : ℝ) (r y : ℝ) (c0 : cos (r / 2) = k * cos ((zA - zB) / 2)) (s0 : sin (r / 2) = k * sin ((zA - zB) / 2))
    (c2 : cos (y / 2) = l * cos ((zA + zB) / 2)) (s2 : sin (y / 2) = l * sin ((zA + zB) / 2)) :
    toQuaternion ⟨r, p, y⟩ = ⟨k * l * ((rB * cos zB + rA * cos zA) / 2), k * l * ((rA * sin zA - rB * sin zB) / 2),
      k * l * ((rB * cos zB - rA * cos zA) / 2), k * l * ((rA * sin zA + rB * sin zB) / 2)⟩ := by
  have e1 : cos zA = cos ((zA - zB) / 2) * cos ((zA + zB) / 2) - sin ((zA - zB) / 2) * sin ((zA + zB) / 2) := by
    rw [← Real.cos_add]; congr 1; ring
  have e2 : sin zA = sin ((zA - zB) / 2) * cos ((zA + zB) / 2) + cos ((zA - zB) / 2) * sin ((zA + zB) / 2) := by
    rw [← Real.sin_add]; congr 1; ring
  have e3 : cos zB = cos ((zA + zB) / 2) * cos ((zA - zB) / 2) + sin ((zA + zB) / 2) * sin ((zA - zB) / 2) := by
    rw [← Real.cos_sub]; congr 1; ring
  have e4 : sin zB = sin ((zA + zB) / 2) * cos ((zA - zB) / 2) - cos ((zA + zB) / 2) * sin ((zA - zB) / 2) := by
    rw [← Real.sin_sub]; congr 1; ring
  unfold toQuaternion
  simp only
  rw [c0, s0, c2, s2, e1, e2, e3, e4, ← h1, ← h2]
  ext <;> simp only <;> ring

theorem half_pitch {s : ℝ} (h : |s| ≤ 1) :
    cos (Real.arcsin s / 2) - sin (Real.arcsin s / 2) = Real.sqrt (1 - s) ∧
    cos (Real.arcsin s / 2) + sin (Real.arcsin s / 2) = Real.sqrt (1 + s) := by
  obtain ⟨h1, h2⟩ := abs_le.1 h
  have hs : s = 2 * sin (Real.arcsin s / 2) * cos (Real.arcsin s / 2) := by
    conv_lhs => rw [← Real.sin_arcsin h1 h2, show Real.arcsin s = 2 * (Real.arcsin s / 2) by ring, Real.sin_two_mul]
  have hc : 0 ≤ cos (Real.arcsin s / 2) ^ 2 - sin (Real.arcsin s / 2) ^ 2 := by
    have : cos (Real.arcsin s) = cos (Real.arcsin s / 2) ^ 2 - sin (Real.arcsin s / 2) ^ 2 := by
      conv_lhs => rw [show Real.arcsin s = 2 * (Real.arcsin s / 2) by ring, Real.cos_two_mul]
      linarith [Real.sin_sq_add_cos_sq (Real.arcsin s / 2)]
    rw [← this]
    exact Real.cos_arcsin_nonneg s
  have hc0 : 0 ≤ cos (Real.arcsin s / 2) := by
    apply Real.cos_nonneg_of_mem_Icc
    constructor <;> linarith [Real.neg_pi_div_two_le_arcsin s, Real.arcsin_le_pi_div_two s, Real.pi_pos]
  have hsc := Real.sin_sq_add_cos_sq (Real.arcsin s / 2)
  have hab : |sin (Real.arcsin s / 2)| ≤ cos (Real.arcsin s / 2) := abs_le_of_sq_le_sq (by linarith) hc0
  obtain ⟨h3, h4⟩ := abs_le.1 hab
  constructor
  · symm
    rw [Real.sqrt_eq_iff_mul_self_eq (by linarith) (by linarith)]
    linear_combination -hsc - hs
  · symm
    rw [Real.sqrt_eq_iff_mul_self_eq (by linarith) (by linarith)]
    linear_combination -hsc + hs

/-- The hypotenuses of the half angles. -/
theorem hypotenuses {q : Quaternion} (h : Spec.Unit q) :
    1 - 2 * (q.w * q.y - q.x * q.z) = (q.w - q.y) ^ 2 + (q.x + q.z) ^ 2 ∧
    1 + 2 * (q.w * q.y - q.x * q.z) = (q.w + q.y) ^ 2 + (q.z - q.x) ^ 2 := by
  unfold Spec.Unit at h
  constructor <;> linear_combination -h

/-- How far the polar form with `halfAngle` is from the numbers themselves. -/
theorem halfAngle_polar (y x : ℝ) :
    |Real.sqrt (x ^ 2 + y ^ 2) * cos (halfAngle y x) - x| ≤ 3 / 2 ^ 52 ∧ |Real.sqrt (x ^ 2 + y ^ 2) * sin (halfAngle y x) - y| ≤ 3 / 2 ^ 52 ∧
    (¬(|y| ≤ 1 / 2 ^ 52 ∧ |x| ≤ 1 / 2 ^ 52) ∨ x = 0 ∧ y = 0 → Real.sqrt (x ^ 2 + y ^ 2) * cos (halfAngle y x) = x ∧
      Real.sqrt (x ^ 2 + y ^ 2) * sin (halfAngle y x) = y) := by
  obtain ⟨h1, h2⟩ := hyp_arg x y
  unfold halfAngle
  split
  · rename_i h
    rw [Real.cos_zero, Real.sin_zero, mul_one, mul_zero, zero_sub, abs_neg]
    obtain ⟨hy, hx⟩ := h
    have hr : Real.sqrt (x ^ 2 + y ^ 2) ≤ 2 / 2 ^ 52 := by
      rw [Real.sqrt_le_left (by norm_num)]
      have a := sq_le_sq' (abs_le.1 hx).1 (abs_le.1 hx).2
      have b := sq_le_sq' (abs_le.1 hy).1 (abs_le.1 hy).2
      norm_num at a b ⊢
      linarith
    have hr0 := Real.sqrt_nonneg (x ^ 2 + y ^ 2)
    refine ⟨?_, by norm_num at hy ⊢; linarith, ?_⟩
    · refine (abs_sub _ _).trans ?_
      rw [abs_of_nonneg hr0]
      norm_num at hx hr ⊢
      linarith
    · rintro (hn | ⟨rfl, rfl⟩)
      · exact absurd ⟨hy, hx⟩ hn
      · simp
  · rw [h1, h2, sub_self, sub_self, abs_zero]
    exact ⟨by positivity, by positivity, fun _ => ⟨rfl, rfl⟩⟩

/-- The quaternion of the angles of a unit quaternion. -/
theorem roundtrip {q : Quaternion} (h : Spec.Unit q) : ∃ (k zA zB rA rB : ℝ), (k = 1 ∨ k = -1) ∧
    rA = Real.sqrt ((q.w - q.y) ^ 2 + (q.x + q.z) ^ 2) ∧ rB = Real.sqrt ((q.w + q.y) ^ 2 + (q.z - q.x) ^ 2) ∧
    zA = halfAngle (q.x + q.z) (q.w - q.y) ∧ zB = halfAngle (q.z - q.x) (q.w + q.y) ∧
    toQuaternion (ofQuaternion q) = ⟨k * ((rB * cos zB + rA * cos zA) / 2), k * ((rA * sin zA - rB * sin zB) / 2),
      k * ((rB * cos zB - rA * cos zA) / 2), k * ((rA * sin zA + rB * sin zB) / 2)⟩ := by
  obtain ⟨hp, hle⟩ := pitch_spec h
  obtain ⟨h1, h2⟩ := half_pitch hle
  obtain ⟨e1, e2⟩ := hypotenuses h
  obtain ⟨a1, a2⟩ := halfAngle_range (q.x + q.z) (q.w - q.y)
  obtain ⟨b1, b2⟩ := halfAngle_range (q.z - q.x) (q.w + q.y)
  have hroll : (ofQuaternion q).roll = wrap (halfAngle (q.x + q.z) (q.w - q.y) - halfAngle (q.z - q.x) (q.w + q.y)) := by
    unfold ofQuaternion; rw [normalized_unit h]
  have hyaw : (ofQuaternion q).yaw = wrap (halfAngle (q.x + q.z) (q.w - q.y) + halfAngle (q.z - q.x) (q.w + q.y)) := by
    unfold ofQuaternion; rw [normalized_unit h]
  obtain ⟨k, hk, c0, s0⟩ := wrap_half (halfAngle (q.x + q.z) (q.w - q.y) - halfAngle (q.z - q.x) (q.w + q.y)) (by linarith) (by linarith)
  obtain ⟨l, hl, c2, s2⟩ := wrap_half (halfAngle (q.x + q.z) (q.w - q.y) + halfAngle (q.z - q.x) (q.w + q.y)) (by linarith) (by linarith)
  refine ⟨k * l, _, _, _, _, ?_, rfl, rfl, rfl, rfl, ?_⟩
  · rcases hk with rfl | rfl <;> rcases hl with rfl | rfl <;> norm_num
  · rw [show ofQuaternion q = ⟨(ofQuaternion q).roll, (ofQuaternion q).pitch, (ofQuaternion q).yaw⟩ from rfl, hroll, hp, hyaw]
    exact halves (by rw [h1, e1]) (by rw [h2, e2]) k l _ _ c0 s0 c2 s2

theorem angle_unique {x y : ℝ} (hx1 : -Real.pi ≤ x) (hx2 : x ≤ Real.pi) (hy1 : -Real.pi < y) (hy2 : y < Real.pi)
    (hc : cos x = cos y) (hs : sin x = sin y) : x = y := by
  have h1 : cos (x - y) = 1 := by
    rw [Real.cos_sub, hc, hs]
    linarith [Real.sin_sq_add_cos_sq y, sq (cos y), sq (sin y)]
  obtain ⟨n, hn⟩ := (Real.cos_eq_one_iff _).1 h1
  have hpi := Real.pi_pos
  have hlt : |x - y| < 2 * Real.pi := by rw [abs_lt]; constructor <;> linarith
  rw [← hn, abs_mul, abs_of_pos (by linarith : 0 < 2 * Real.pi)] at hlt
  have : |(n : ℝ)| < 1 := by
    by_contra hge
    push Not at hge
    nlinarith
  have h0 : n = 0 := by
    have h2 : |n| < 1 := by exact_mod_cast this
    exact Int.abs_lt_one_iff.1 h2
  rw [h0, Int.cast_zero, zero_mul] at hn
  linarith

end Maliput.Quat.RollPitchYaw
