import Verif.Spec.BoundingBox
import Verif.Lemmas.RollPitchYaw
import Verif.Lemmas.Monad

set_option autoImplicit false

/-! Lemmas about oriented boxes. -/
namespace Maliput.Quat

open Maliput.Linear

theorem isRotation_toMatrix (a : RollPitchYaw) : Spec.IsRotation a.toMatrix := by
  rw [← RollPitchYaw.toMatrix_eq]; exact isRotation_toRotationMatrix _

theorem determinant_eq_det (m : M3) : m.determinant = Spec.det m := by
  simp only [M3.determinant, Spec.det]; ring

theorem inverse_rotation {m : M3} (h : Spec.IsRotation m) : m.inverse = .ok m.transpose := by
  have hd : m.determinant = 1 := by rw [determinant_eq_det, h.det]
  have o := h.ortho
  unfold M3.inverse
  simp only [hd]
  rw [if_neg (by norm_num)]
  congr 1
  ext <;> simp only [M3.scale, M3.adjoint, M3.transpose]
  · linear_combination -o.cxx
  · linear_combination -o.cyx
  · linear_combination -o.czx
  · linear_combination -o.cxy
  · linear_combination -o.cyy
  · linear_combination -o.czy
  · linear_combination -o.cxz
  · linear_combination -o.cyz
  · linear_combination -o.czz

theorem mulVec_transpose_mulVec {m : M3} (h : Spec.IsRotation m) (v : V3) : m.mulVec (m.transpose.mulVec v) = v := by
  have o := h.ortho
  ext <;> simp only [M3.mulVec, M3.transpose]
  · linear_combination v.x * o.rxx + v.y * o.rxy + v.z * o.rxz
  · linear_combination v.x * o.rxy + v.y * o.ryy + v.z * o.ryz
  · linear_combination v.x * o.rxz + v.y * o.ryz + v.z * o.rzz

theorem transpose_mulVec_mulVec {m : M3} (h : Spec.IsRotation m) (v : V3) : m.transpose.mulVec (m.mulVec v) = v := by
  have o := h.ortho
  ext <;> simp only [M3.mulVec, M3.transpose]
  · linear_combination v.x * o.lxx + v.y * o.lxy + v.z * o.lxz
  · linear_combination v.x * o.lxy + v.y * o.lyy + v.z * o.lyz
  · linear_combination v.x * o.lxz + v.y * o.lyz + v.z * o.lzz

namespace BoundingBox

theorem make_ok {p s : V3} {o : RollPitchYaw} {tol : ℝ} {b : BoundingBox} (h : make p s o tol = .ok b) :
    0 ≤ tol ∧ 0 ≤ s.x ∧ 0 ≤ s.y ∧ 0 ≤ s.z ∧ b = ⟨p, s, o, tol, ⟨s.x / 2, s.y / 2, s.z / 2⟩⟩ := by
  unfold make at h
  by_cases h0 : tol ≥ 0
  · by_cases h1 : s.x ≥ 0
    · by_cases h2 : s.y ≥ 0
      · by_cases h3 : s.z ≥ 0
        · simp only [throwUnless, h0, h1, h2, h3, decide_true, if_true, bind, Except.bind, pure, Except.pure] at h
          injection h with h
          exact ⟨h0, h1, h2, h3, h.symm⟩
        · simp [throwUnless, h0, h1, h2, h3, bind, Except.bind] at h
      · simp [throwUnless, h0, h1, h2, bind, Except.bind] at h
    · simp [throwUnless, h0, h1, bind, Except.bind] at h
  · simp [throwUnless, h0, bind, Except.bind] at h

theorem getVertices_ok (b : BoundingBox) : b.getVertices =
    .ok ((verticesBoxFrame b.half).map fun v => (b.orientation.toMatrix.transpose.mulVec v).add b.position) := by
  unfold getVertices
  rw [inverse_rotation (isRotation_toMatrix _)]
  rfl

theorem sub_point (b : BoundingBox) (u : V3) :
    b.orientation.toMatrix.mulVec ((Spec.BoundingBox.point b u).sub b.position) = u := by
  have : (Spec.BoundingBox.point b u).sub b.position = b.orientation.toMatrix.transpose.mulVec u := by
    ext <;> simp only [Spec.BoundingBox.point, V3.sub, V3.add] <;> ring
  rw [this, mulVec_transpose_mulVec (isRotation_toMatrix _)]

theorem point_sub (b : BoundingBox) (p : V3) :
    Spec.BoundingBox.point b (b.orientation.toMatrix.mulVec (p.sub b.position)) = p := by
  unfold Spec.BoundingBox.point
  rw [transpose_mulVec_mulVec (isRotation_toMatrix _)]
  ext <;> simp only [V3.sub, V3.add] <;> ring

/-- An affine function on a box is largest and smallest at corners. -/
theorem affine_le {c α β γ B : ℝ} {h u : V3}
    (hu : |u.x| ≤ h.x ∧ |u.y| ≤ h.y ∧ |u.z| ≤ h.z)
    (hB : ∀ v ∈ verticesBoxFrame h, c + α * v.x + β * v.y + γ * v.z ≤ B) :
    c + α * u.x + β * u.y + γ * u.z ≤ B := by
  have key : ∀ k x m : ℝ, |x| ≤ m → k * x ≤ |k| * m := by
    intro k x m hx
    calc k * x ≤ |k * x| := le_abs_self _
      _ = |k| * |x| := abs_mul _ _
      _ ≤ |k| * m := mul_le_mul_of_nonneg_left hx (abs_nonneg _)
  have hx := key α _ _ hu.1
  have hy := key β _ _ hu.2.1
  have hz := key γ _ _ hu.2.2
  simp only [verticesBoxFrame, List.forall_mem_cons, List.not_mem_nil, false_implies, implies_true, and_true] at hB
  obtain ⟨h1, h2, h3, h4, h5, h6, h7, h8⟩ := hB
  rcases abs_choice α with ha | ha <;> rcases abs_choice β with hb | hb <;> rcases abs_choice γ with hc | hc <;>
    rw [ha] at hx <;> rw [hb] at hy <;> rw [hc] at hz <;> linarith

end BoundingBox
end Maliput.Quat
