import Verif.Lemmas.Quaternion

set_option autoImplicit false

/-! Lemmas about rotation matrices: the products of the components of their quaternions. -/
namespace Maliput.Quat

open Maliput.Linear Quaternion

/-- The equations of a rotation matrix, one by one. -/
structure Ortho (m : M3) : Prop where
  lxx : m.xx * m.xx + m.yx * m.yx + m.zx * m.zx = 1
  rxx : m.xx * m.xx + m.xy * m.xy + m.xz * m.xz = 1
  lxy : m.xx * m.xy + m.yx * m.yy + m.zx * m.zy = 0
  rxy : m.xx * m.yx + m.xy * m.yy + m.xz * m.yz = 0
  lxz : m.xx * m.xz + m.yx * m.yz + m.zx * m.zz = 0
  rxz : m.xx * m.zx + m.xy * m.zy + m.xz * m.zz = 0
  lyy : m.xy * m.xy + m.yy * m.yy + m.zy * m.zy = 1
  ryy : m.yx * m.yx + m.yy * m.yy + m.yz * m.yz = 1
  lyz : m.xy * m.xz + m.yy * m.yz + m.zy * m.zz = 0
  ryz : m.yx * m.zx + m.yy * m.zy + m.yz * m.zz = 0
  lzz : m.xz * m.xz + m.yz * m.yz + m.zz * m.zz = 1
  rzz : m.zx * m.zx + m.zy * m.zy + m.zz * m.zz = 1
  cxx : m.xx = m.yy * m.zz - m.yz * m.zy
  cxy : m.xy = m.yz * m.zx - m.yx * m.zz
  cxz : m.xz = m.yx * m.zy - m.yy * m.zx
  cyx : m.yx = m.zy * m.xz - m.zz * m.xy
  cyy : m.yy = m.zz * m.xx - m.zx * m.xz
  cyz : m.yz = m.zx * m.xy - m.zy * m.xx
  czx : m.zx = m.xy * m.yz - m.xz * m.yy
  czy : m.zy = m.xz * m.yx - m.xx * m.yz
  czz : m.zz = m.xx * m.yy - m.xy * m.yx

theorem Spec.IsRotation.ortho {m : M3} (h : Spec.IsRotation m) : Ortho m := by
  have hd : Spec.det m = 1 := h.det
  unfold Spec.det at hd
  have lxx : m.xx * m.xx + m.yx * m.yx + m.zx * m.zx = 1 := by have := congrArg M3.xx h.left; simp only [M3.mul, M3.transpose, Spec.one] at this; linarith
  have rxx : m.xx * m.xx + m.xy * m.xy + m.xz * m.xz = 1 := by have := congrArg M3.xx h.right; simp only [M3.mul, M3.transpose, Spec.one] at this; linarith
  have lxy : m.xx * m.xy + m.yx * m.yy + m.zx * m.zy = 0 := by have := congrArg M3.xy h.left; simp only [M3.mul, M3.transpose, Spec.one] at this; linarith
  have rxy : m.xx * m.yx + m.xy * m.yy + m.xz * m.yz = 0 := by have := congrArg M3.xy h.right; simp only [M3.mul, M3.transpose, Spec.one] at this; linarith
  have lxz : m.xx * m.xz + m.yx * m.yz + m.zx * m.zz = 0 := by have := congrArg M3.xz h.left; simp only [M3.mul, M3.transpose, Spec.one] at this; linarith
  have rxz : m.xx * m.zx + m.xy * m.zy + m.xz * m.zz = 0 := by have := congrArg M3.xz h.right; simp only [M3.mul, M3.transpose, Spec.one] at this; linarith
  have lyy : m.xy * m.xy + m.yy * m.yy + m.zy * m.zy = 1 := by have := congrArg M3.yy h.left; simp only [M3.mul, M3.transpose, Spec.one] at this; linarith
  have ryy : m.yx * m.yx + m.yy * m.yy + m.yz * m.yz = 1 := by have := congrArg M3.yy h.right; simp only [M3.mul, M3.transpose, Spec.one] at this; linarith
  have lyz : m.xy * m.xz + m.yy * m.yz + m.zy * m.zz = 0 := by have := congrArg M3.yz h.left; simp only [M3.mul, M3.transpose, Spec.one] at this; linarith
  have ryz : m.yx * m.zx + m.yy * m.zy + m.yz * m.zz = 0 := by have := congrArg M3.yz h.right; simp only [M3.mul, M3.transpose, Spec.one] at this; linarith
  have lzz : m.xz * m.xz + m.yz * m.yz + m.zz * m.zz = 1 := by have := congrArg M3.zz h.left; simp only [M3.mul, M3.transpose, Spec.one] at this; linarith
  have rzz : m.zx * m.zx + m.zy * m.zy + m.zz * m.zz = 1 := by have := congrArg M3.zz h.right; simp only [M3.mul, M3.transpose, Spec.one] at this; linarith
  have cxx : m.xx = m.yy * m.zz - m.yz * m.zy := by
    linear_combination lxx * (m.yy * m.zz - m.yz * m.zy) + lxy * (m.yz * m.zx - m.yx * m.zz) + lxz * (m.yx * m.zy - m.yy * m.zx) - m.xx * hd
  have cxy : m.xy = m.yz * m.zx - m.yx * m.zz := by
    linear_combination lxy * (m.yy * m.zz - m.yz * m.zy) + lyy * (m.yz * m.zx - m.yx * m.zz) + lyz * (m.yx * m.zy - m.yy * m.zx) - m.xy * hd
  have cxz : m.xz = m.yx * m.zy - m.yy * m.zx := by
    linear_combination lxz * (m.yy * m.zz - m.yz * m.zy) + lyz * (m.yz * m.zx - m.yx * m.zz) + lzz * (m.yx * m.zy - m.yy * m.zx) - m.xz * hd
  have cyx : m.yx = m.zy * m.xz - m.zz * m.xy := by
    linear_combination lxx * (m.zy * m.xz - m.zz * m.xy) + lxy * (m.zz * m.xx - m.zx * m.xz) + lxz * (m.zx * m.xy - m.zy * m.xx) - m.yx * hd
  have cyy : m.yy = m.zz * m.xx - m.zx * m.xz := by
    linear_combination lxy * (m.zy * m.xz - m.zz * m.xy) + lyy * (m.zz * m.xx - m.zx * m.xz) + lyz * (m.zx * m.xy - m.zy * m.xx) - m.yy * hd
  have cyz : m.yz = m.zx * m.xy - m.zy * m.xx := by
    linear_combination lxz * (m.zy * m.xz - m.zz * m.xy) + lyz * (m.zz * m.xx - m.zx * m.xz) + lzz * (m.zx * m.xy - m.zy * m.xx) - m.yz * hd
  have czx : m.zx = m.xy * m.yz - m.xz * m.yy := by
    linear_combination lxx * (m.xy * m.yz - m.xz * m.yy) + lxy * (m.xz * m.yx - m.xx * m.yz) + lxz * (m.xx * m.yy - m.xy * m.yx) - m.zx * hd
  have czy : m.zy = m.xz * m.yx - m.xx * m.yz := by
    linear_combination lxy * (m.xy * m.yz - m.xz * m.yy) + lyy * (m.xz * m.yx - m.xx * m.yz) + lyz * (m.xx * m.yy - m.xy * m.yx) - m.zy * hd
  have czz : m.zz = m.xx * m.yy - m.xy * m.yx := by
    linear_combination lxz * (m.xy * m.yz - m.xz * m.yy) + lyz * (m.xz * m.yx - m.xx * m.yz) + lzz * (m.xx * m.yy - m.xy * m.yx) - m.zz * hd
  exact ⟨lxx, rxx, lxy, rxy, lxz, rxz, lyy, ryy, lyz, ryz, lzz, rzz, cxx, cxy, cxz, cyx, cyy, cyz, czx, czy, czz⟩

theorem Ortho.k_wxx {m : M3} (h : Ortho m) :
    (m.zy - m.yz) * (m.zy - m.yz) = (1 + m.xx + m.yy + m.zz) * (1 + m.xx - m.yy - m.zz) := by
  linear_combination (-1) * h.rxx + (1) * h.lyy + (1) * h.lzz + (-2) * h.cxx

theorem Ortho.k_wxy {m : M3} (h : Ortho m) :
    (m.zy - m.yz) * (m.xz - m.zx) = (1 + m.xx + m.yy + m.zz) * (m.yx + m.xy) := by
  linear_combination (-1) * h.lxy + (-1) * h.rxy + (-1) * h.cxy + (-1) * h.cyx

theorem Ortho.k_wxz {m : M3} (h : Ortho m) :
    (m.zy - m.yz) * (m.yx - m.xy) = (1 + m.xx + m.yy + m.zz) * (m.xz + m.zx) := by
  linear_combination (-1) * h.lxz + (-1) * h.rxz + (-1) * h.cxz + (-1) * h.czx

theorem Ortho.k_wyy {m : M3} (h : Ortho m) :
    (m.xz - m.zx) * (m.xz - m.zx) = (1 + m.xx + m.yy + m.zz) * (1 - m.xx + m.yy - m.zz) := by
  linear_combination (1) * h.lxx + (-1) * h.ryy + (1) * h.lzz + (-2) * h.cyy

theorem Ortho.k_wyz {m : M3} (h : Ortho m) :
    (m.xz - m.zx) * (m.yx - m.xy) = (1 + m.xx + m.yy + m.zz) * (m.yz + m.zy) := by
  linear_combination (-1) * h.lyz + (-1) * h.ryz + (-1) * h.cyz + (-1) * h.czy

theorem Ortho.k_wzz {m : M3} (h : Ortho m) :
    (m.yx - m.xy) * (m.yx - m.xy) = (1 + m.xx + m.yy + m.zz) * (1 - m.xx - m.yy + m.zz) := by
  linear_combination (1) * h.rxx + (1) * h.ryy + (-1) * h.lzz + (-2) * h.czz

theorem Ortho.k_xww {m : M3} (h : Ortho m) :
    (m.zy - m.yz) * (m.zy - m.yz) = (1 + m.xx - m.yy - m.zz) * (1 + m.xx + m.yy + m.zz) := by
  linear_combination (-1) * h.rxx + (1) * h.lyy + (1) * h.lzz + (-2) * h.cxx

theorem Ortho.k_xwy {m : M3} (h : Ortho m) :
    (m.zy - m.yz) * (m.yx + m.xy) = (1 + m.xx - m.yy - m.zz) * (m.xz - m.zx) := by
  linear_combination (-1) * h.lxz + (1) * h.rxz + (-1) * h.cxz + (1) * h.czx

theorem Ortho.k_xwz {m : M3} (h : Ortho m) :
    (m.zy - m.yz) * (m.xz + m.zx) = (1 + m.xx - m.yy - m.zz) * (m.yx - m.xy) := by
  linear_combination (1) * h.lxy + (-1) * h.rxy + (1) * h.cxy + (-1) * h.cyx

theorem Ortho.k_xyy {m : M3} (h : Ortho m) :
    (m.yx + m.xy) * (m.yx + m.xy) = (1 + m.xx - m.yy - m.zz) * (1 - m.xx + m.yy - m.zz) := by
  linear_combination (1) * h.rxx + (1) * h.ryy + (-1) * h.lzz + (2) * h.czz

theorem Ortho.k_xyz {m : M3} (h : Ortho m) :
    (m.yx + m.xy) * (m.xz + m.zx) = (1 + m.xx - m.yy - m.zz) * (m.yz + m.zy) := by
  linear_combination (1) * h.lyz + (1) * h.ryz + (-1) * h.cyz + (-1) * h.czy

theorem Ortho.k_xzz {m : M3} (h : Ortho m) :
    (m.xz + m.zx) * (m.xz + m.zx) = (1 + m.xx - m.yy - m.zz) * (1 - m.xx - m.yy + m.zz) := by
  linear_combination (1) * h.lxx + (-1) * h.ryy + (1) * h.lzz + (2) * h.cyy

theorem Ortho.k_yww {m : M3} (h : Ortho m) :
    (m.xz - m.zx) * (m.xz - m.zx) = (1 - m.xx + m.yy - m.zz) * (1 + m.xx + m.yy + m.zz) := by
  linear_combination (1) * h.lxx + (-1) * h.ryy + (1) * h.lzz + (-2) * h.cyy

theorem Ortho.k_ywx {m : M3} (h : Ortho m) :
    (m.xz - m.zx) * (m.yx + m.xy) = (1 - m.xx + m.yy - m.zz) * (m.zy - m.yz) := by
  linear_combination (1) * h.lyz + (-1) * h.ryz + (1) * h.cyz + (-1) * h.czy

theorem Ortho.k_ywz {m : M3} (h : Ortho m) :
    (m.xz - m.zx) * (m.yz + m.zy) = (1 - m.xx + m.yy - m.zz) * (m.yx - m.xy) := by
  linear_combination (-1) * h.lxy + (1) * h.rxy + (1) * h.cxy + (-1) * h.cyx

theorem Ortho.k_yxx {m : M3} (h : Ortho m) :
    (m.yx + m.xy) * (m.yx + m.xy) = (1 - m.xx + m.yy - m.zz) * (1 + m.xx - m.yy - m.zz) := by
  linear_combination (1) * h.rxx + (1) * h.ryy + (-1) * h.lzz + (2) * h.czz

theorem Ortho.k_yxz {m : M3} (h : Ortho m) :
    (m.yx + m.xy) * (m.yz + m.zy) = (1 - m.xx + m.yy - m.zz) * (m.xz + m.zx) := by
  linear_combination (1) * h.lxz + (1) * h.rxz + (-1) * h.cxz + (-1) * h.czx

theorem Ortho.k_yzz {m : M3} (h : Ortho m) :
    (m.yz + m.zy) * (m.yz + m.zy) = (1 - m.xx + m.yy - m.zz) * (1 - m.xx - m.yy + m.zz) := by
  linear_combination (-1) * h.rxx + (1) * h.lyy + (1) * h.lzz + (2) * h.cxx

theorem Ortho.k_zww {m : M3} (h : Ortho m) :
    (m.yx - m.xy) * (m.yx - m.xy) = (1 - m.xx - m.yy + m.zz) * (1 + m.xx + m.yy + m.zz) := by
  linear_combination (1) * h.rxx + (1) * h.ryy + (-1) * h.lzz + (-2) * h.czz

theorem Ortho.k_zwx {m : M3} (h : Ortho m) :
    (m.yx - m.xy) * (m.xz + m.zx) = (1 - m.xx - m.yy + m.zz) * (m.zy - m.yz) := by
  linear_combination (-1) * h.lyz + (1) * h.ryz + (1) * h.cyz + (-1) * h.czy

theorem Ortho.k_zwy {m : M3} (h : Ortho m) :
    (m.yx - m.xy) * (m.yz + m.zy) = (1 - m.xx - m.yy + m.zz) * (m.xz - m.zx) := by
  linear_combination (1) * h.lxz + (-1) * h.rxz + (-1) * h.cxz + (1) * h.czx

theorem Ortho.k_zxx {m : M3} (h : Ortho m) :
    (m.xz + m.zx) * (m.xz + m.zx) = (1 - m.xx - m.yy + m.zz) * (1 + m.xx - m.yy - m.zz) := by
  linear_combination (1) * h.lxx + (-1) * h.ryy + (1) * h.lzz + (2) * h.cyy

theorem Ortho.k_zxy {m : M3} (h : Ortho m) :
    (m.xz + m.zx) * (m.yz + m.zy) = (1 - m.xx - m.yy + m.zz) * (m.yx + m.xy) := by
  linear_combination (1) * h.lxy + (1) * h.rxy + (-1) * h.cxy + (-1) * h.cyx

theorem Ortho.k_zyy {m : M3} (h : Ortho m) :
    (m.yz + m.zy) * (m.yz + m.zy) = (1 - m.xx - m.yy + m.zz) * (1 - m.xx + m.yy - m.zz) := by
  linear_combination (-1) * h.rxx + (1) * h.lyy + (1) * h.lzz + (2) * h.cxx

end Maliput.Quat
