import Verif.Lemmas.BoundingBox

set_option autoImplicit false

/-! Properties C70 and C71: oriented boxes. -/
namespace Maliput.Props

open Maliput.Linear Maliput.Quat Maliput.Quat.BoundingBox

/-- C70: a box is constructed exactly if neither its tolerance nor its size is negative. -/
theorem bounding_box_make (p s : V3) (o : RollPitchYaw) (tol : ℝ) :
    ((0 ≤ tol ∧ 0 ≤ s.x ∧ 0 ≤ s.y ∧ 0 ≤ s.z) ∧
      ∃ b, make p s o tol = .ok b ∧ b.position = p ∧ b.boxSize = s ∧ b.orientation = o ∧ b.tolerance = tol) ∨
    (¬(0 ≤ tol ∧ 0 ≤ s.x ∧ 0 ≤ s.y ∧ 0 ≤ s.z) ∧ make p s o tol = .error .throws) := by
  by_cases h0 : 0 ≤ tol <;> by_cases h1 : 0 ≤ s.x <;> by_cases h2 : 0 ≤ s.y <;> by_cases h3 : 0 ≤ s.z <;>
    simp [make, throwUnless, h0, h1, h2, h3, bind, Except.bind, pure, Except.pure]

/-- C70: `Contains` is true of exactly the points of the box, moved outwards by the tolerance. -/
theorem bounding_box_contains {p s : V3} {o : RollPitchYaw} {tol : ℝ} {b : BoundingBox} (hb : make p s o tol = .ok b)
    (q : V3) : b.contains q = true ↔ Spec.BoundingBox.Mem b tol q := by
  obtain ⟨_, _, _, _, rfl⟩ := make_ok hb
  simp only [contains, Bool.and_eq_true, decide_eq_true_eq, Spec.BoundingBox.Mem, Spec.Within]
  constructor
  · rintro ⟨⟨⟨⟨⟨h1, h2⟩, h3⟩, h4⟩, h5⟩, h6⟩
    exact ⟨_, ⟨abs_le.2 ⟨by linarith, h1⟩, abs_le.2 ⟨by linarith, h3⟩, abs_le.2 ⟨by linarith, h5⟩⟩, (point_sub _ q).symm⟩
  · rintro ⟨u, ⟨hx, hy, hz⟩, rfl⟩
    have := sub_point ⟨p, s, o, tol, ⟨s.x / 2, s.y / 2, s.z / 2⟩⟩ u
    simp only at this
    rw [this]
    rw [abs_le] at hx hy hz
    exact ⟨⟨⟨⟨⟨hx.2, by linarith⟩, hy.2⟩, by linarith⟩, hz.2⟩, by linarith⟩

/-- C70: `get_vertices` gives the eight corners of the box. -/
theorem bounding_box_vertices {p s : V3} {o : RollPitchYaw} {tol : ℝ} {b : BoundingBox} (hb : make p s o tol = .ok b) :
    ∃ vs, b.getVertices = .ok vs ∧ vs.length = 8 ∧
      ∀ v, v ∈ vs ↔ ∃ u, Spec.Corner s u ∧ v = Spec.BoundingBox.point b u := by
  obtain ⟨_, _, _, _, rfl⟩ := make_ok hb
  refine ⟨_, getVertices_ok _, by simp [verticesBoxFrame], fun v => ?_⟩
  have hadd : ∀ u, (o.toMatrix.transpose.mulVec u).add p = p.add (o.toMatrix.transpose.mulVec u) := by
    intro u; ext <;> simp only [V3.add] <;> ring
  simp only [List.mem_map, hadd, Spec.BoundingBox.point]
  constructor
  · rintro ⟨u, hu, rfl⟩
    refine ⟨u, ?_, rfl⟩
    simp only [verticesBoxFrame, List.mem_cons, List.not_mem_nil, or_false] at hu
    rcases hu with rfl | rfl | rfl | rfl | rfl | rfl | rfl | rfl <;> simp [Spec.Corner]
  · rintro ⟨⟨x, y, z⟩, ⟨hx, hy, hz⟩, rfl⟩
    refine ⟨⟨x, y, z⟩, ?_, rfl⟩
    simp only at hx hy hz
    rcases hx with rfl | rfl <;> rcases hy with rfl | rfl <;> rcases hz with rfl | rfl <;> simp [verticesBoxFrame]

/-- `IsBoxContained` is true exactly if every point of the other box is contained. -/
theorem bounding_box_isBoxContained {p s p' s' : V3} {o o' : RollPitchYaw} {tol tol' : ℝ} {b b' : BoundingBox}
    (hb : make p s o tol = .ok b) (hb' : make p' s' o' tol' = .ok b') :
    ∃ r, b.isBoxContained b' = .ok r ∧
      (r = true ↔ ∀ q, Spec.BoundingBox.Mem b' 0 q → Spec.BoundingBox.Mem b tol q) := by
  obtain ⟨vs, hvs, _, hmem⟩ := bounding_box_vertices hb'
  obtain ⟨_, hsx, hsy, hsz, hb'e⟩ := make_ok hb'
  have hsize : b'.boxSize = s' := by rw [hb'e]
  refine ⟨vs.all b.contains, by simp [isBoxContained, hvs, bind, Except.bind, pure, Except.pure], ?_⟩
  rw [List.all_eq_true]
  simp only [bounding_box_contains hb]
  constructor
  · intro h q hq
    obtain ⟨u, ⟨hux, huy, huz⟩, rfl⟩ := hq
    rw [← bounding_box_contains hb]
    have hc : ∀ w, Spec.Corner s' w → b.contains (Spec.BoundingBox.point b' w) = true :=
      fun w hw => (bounding_box_contains hb _).2 (h _ ((hmem _).2 ⟨w, hw, rfl⟩))
    have hcorner : ∀ v ∈ verticesBoxFrame ⟨s'.x / 2, s'.y / 2, s'.z / 2⟩, Spec.Corner s' v := by
      intro v hv
      simp only [verticesBoxFrame, List.mem_cons, List.not_mem_nil, or_false] at hv
      rcases hv with rfl | rfl | rfl | rfl | rfl | rfl | rfl | rfl <;> simp [Spec.Corner]
    rw [hsize] at hux huy huz
    simp only [add_zero] at hux huy huz
    simp only [contains, Bool.and_eq_true, decide_eq_true_eq] at hc ⊢
    simp only [Spec.BoundingBox.point, M3.mulVec, V3.sub, V3.add] at hc ⊢
    generalize b'.orientation.toMatrix.transpose = m' at hc ⊢
    generalize b.orientation.toMatrix = m at hc ⊢
    generalize b'.position = p1 at hc ⊢
    generalize b.position = p0 at hc ⊢
    have row : ∀ i j k B : ℝ, (∀ w, Spec.Corner s' w →
        i * (p1.x + (m'.xx * w.x + m'.xy * w.y + m'.xz * w.z) - p0.x) +
        j * (p1.y + (m'.yx * w.x + m'.yy * w.y + m'.yz * w.z) - p0.y) +
        k * (p1.z + (m'.zx * w.x + m'.zy * w.y + m'.zz * w.z) - p0.z) ≤ B) →
        i * (p1.x + (m'.xx * u.x + m'.xy * u.y + m'.xz * u.z) - p0.x) +
        j * (p1.y + (m'.yx * u.x + m'.yy * u.y + m'.yz * u.z) - p0.y) +
        k * (p1.z + (m'.zx * u.x + m'.zy * u.y + m'.zz * u.z) - p0.z) ≤ B := by
      intro i j k B hB
      have := affine_le (c := i * (p1.x - p0.x) + j * (p1.y - p0.y) + k * (p1.z - p0.z))
        (α := i * m'.xx + j * m'.yx + k * m'.zx) (β := i * m'.xy + j * m'.yy + k * m'.zy)
        (γ := i * m'.xz + j * m'.yz + k * m'.zz) (B := B) (h := ⟨s'.x / 2, s'.y / 2, s'.z / 2⟩) (u := u)
        ⟨hux, huy, huz⟩ (fun v hv => by linarith [hB v (hcorner v hv)])
      linarith
    have row' : ∀ i j k B : ℝ, (∀ w, Spec.Corner s' w →
        i * (p1.x + (m'.xx * w.x + m'.xy * w.y + m'.xz * w.z) - p0.x) +
        j * (p1.y + (m'.yx * w.x + m'.yy * w.y + m'.yz * w.z) - p0.y) +
        k * (p1.z + (m'.zx * w.x + m'.zy * w.y + m'.zz * w.z) - p0.z) ≥ B) →
        i * (p1.x + (m'.xx * u.x + m'.xy * u.y + m'.xz * u.z) - p0.x) +
        j * (p1.y + (m'.yx * u.x + m'.yy * u.y + m'.yz * u.z) - p0.y) +
        k * (p1.z + (m'.zx * u.x + m'.zy * u.y + m'.zz * u.z) - p0.z) ≥ B := by
      intro i j k B hB
      have := row (-i) (-j) (-k) (-B) (fun w hw => by linarith [hB w hw])
      linarith
    exact ⟨⟨⟨⟨⟨row _ _ _ _ fun w hw => (hc w hw).1.1.1.1.1, row' _ _ _ _ fun w hw => (hc w hw).1.1.1.1.2⟩,
      row _ _ _ _ fun w hw => (hc w hw).1.1.1.2⟩, row' _ _ _ _ fun w hw => (hc w hw).1.1.2⟩,
      row _ _ _ _ fun w hw => (hc w hw).1.2⟩, row' _ _ _ _ fun w hw => (hc w hw).2⟩
  · intro h v hv
    obtain ⟨u, hu, rfl⟩ := (hmem v).1 hv
    refine h _ ⟨u, ?_, rfl⟩
    have ha : ∀ {x m : ℝ}, 0 ≤ m → (x = m / 2 ∨ x = -(m / 2)) → |x| ≤ m / 2 + 0 := by
      rintro x m hm (rfl | rfl)
      · rw [abs_of_nonneg (by linarith)]; linarith
      · rw [abs_neg, abs_of_nonneg (by linarith)]; linarith
    rw [hsize]
    exact ⟨ha hsx hu.1, ha hsy hu.2.1, ha hsz hu.2.2⟩

theorem isBoxIntersected_ok (b b' : BoundingBox) : ∃ r, b.isBoxIntersected b' = .ok r ∧ (r = true ↔
    let t := b'.position.sub b.position
    let m := b.orientation.toMatrix.transpose.mul b'.orientation.toMatrix
    (∀ i, ¬separates1 b b' t m i) ∧ (∀ i, ¬separates2 b b' t m i) ∧ ∀ i j, ¬separates3 b b' t m i j) := by
  unfold isBoxIntersected
  rw [inverse_rotation (isRotation_toMatrix _)]
  simp only [bind, Except.bind, pure, Except.pure]
  split_ifs with h1 h2 h3
  · exact ⟨_, rfl, by simp only [Bool.false_eq_true, false_iff]; rintro ⟨h, _⟩; obtain ⟨i, hi⟩ := h1; exact h i hi⟩
  · exact ⟨_, rfl, by simp only [Bool.false_eq_true, false_iff]; rintro ⟨_, h, _⟩; obtain ⟨i, hi⟩ := h2; exact h i hi⟩
  · exact ⟨_, rfl, by simp only [Bool.false_eq_true, false_iff]; rintro ⟨_, _, h⟩; obtain ⟨i, j, hi⟩ := h3; exact h i j hi⟩
  · push Not at h1 h2 h3
    exact ⟨_, rfl, by simp only [true_iff]; exact ⟨h1, h2, h3⟩⟩

/-- C71: `Overlaps` never throws for boxes, and it is `kContained` exactly if every point of the other box is contained. -/
theorem bounding_box_contained {p s p' s' : V3} {o o' : RollPitchYaw} {tol tol' : ℝ} {b b' : BoundingBox}
    (hb : make p s o tol = .ok b) (hb' : make p' s' o' tol' = .ok b') :
    ∃ r, b.overlaps b' = .ok r ∧
      (r = .contained ↔ ∀ q, Spec.BoundingBox.Mem b' 0 q → b.contains q = true) := by
  obtain ⟨c, hc, hci⟩ := bounding_box_isBoxContained hb hb'
  obtain ⟨i, hi, _⟩ := isBoxIntersected_ok b b'
  simp only [bounding_box_contains hb]
  rw [← hci]
  unfold overlaps
  rw [hc, hi]
  cases c <;> cases i <;> simp [bind, Except.bind, pure, Except.pure]

theorem overlaps_ok {p s p' s' : V3} {o o' : RollPitchYaw} {tol tol' : ℝ} {b b' : BoundingBox}
    (hb : make p s o tol = .ok b) (hb' : make p' s' o' tol' = .ok b') :
    ∃ r i, b.overlaps b' = .ok r ∧ b.isBoxIntersected b' = .ok i ∧ (r = .disjointed → i = false) ∧
      (r = .intersected → i = true) := by
  obtain ⟨c, hc, _⟩ := bounding_box_isBoxContained hb hb'
  obtain ⟨i, hi, _⟩ := isBoxIntersected_ok b b'
  unfold overlaps
  rw [hc, hi]
  cases c <;> cases i <;> simp [bind, Except.bind, pure, Except.pure]

theorem toMatrix_zero : RollPitchYaw.toMatrix ⟨0, 0, 0⟩ = Spec.one := by
  ext <;> simp [RollPitchYaw.toMatrix, Spec.one]

/-- C71, for boxes that are not rotated: if `Overlaps` is `kDisjointed`, the boxes have no point in common; and if they
are apart along one of the axes, by more than the margin of the code, it is not `kIntersected`.  Missing: rotated boxes,
of which this is false (`bounding_box_missed`, `bounding_box_apart`). -/
theorem bounding_box_overlaps_partial {p s p' s' : V3} {tol tol' : ℝ} {b b' : BoundingBox}
    (hb : make p s ⟨0, 0, 0⟩ tol = .ok b) (hb' : make p' s' ⟨0, 0, 0⟩ tol' = .ok b') :
    ∃ r, b.overlaps b' = .ok r ∧
      (r = .disjointed → ¬∃ q, Spec.BoundingBox.Mem b 0 q ∧ Spec.BoundingBox.Mem b' 0 q) ∧
      ((|p'.x - p.x| > s.x / 2 + s'.x / 2 + (s'.x + s'.y + s'.z) / 2000000 ∨
        |p'.y - p.y| > s.y / 2 + s'.y / 2 + (s'.x + s'.y + s'.z) / 2000000 ∨
        |p'.z - p.z| > s.z / 2 + s'.z / 2 + (s'.x + s'.y + s'.z) / 2000000) → r ≠ .intersected) := by
  obtain ⟨r, i, hr, hi, hd, hin⟩ := overlaps_ok hb hb'
  obtain ⟨i', hi', hii⟩ := isBoxIntersected_ok b b'
  obtain rfl : i = i' := by rw [hi] at hi'; injection hi'
  obtain ⟨_, hx, hy, hz, rfl⟩ := make_ok hb
  obtain ⟨_, hx', hy', hz', rfl⟩ := make_ok hb'
  have hm : (RollPitchYaw.toMatrix ⟨0, 0, 0⟩).transpose.mul (RollPitchYaw.toMatrix ⟨0, 0, 0⟩) = Spec.one := by
    rw [toMatrix_zero]; ext <;> simp [Spec.one, M3.transpose, M3.mul]
  have hpt : ∀ v : V3, (RollPitchYaw.toMatrix ⟨0, 0, 0⟩).transpose.mulVec v = v := by
    intro v; rw [toMatrix_zero]; ext <;> simp [Spec.one, M3.transpose, M3.mulVec]
  simp only [hm] at hii
  refine ⟨r, hr, fun h => ?_, fun h => ?_⟩
  · have hf : i = false := hd h
    rintro ⟨q, ⟨u, ⟨h1, h2, h3⟩, hq⟩, ⟨u', ⟨h1', h2', h3'⟩, hq'⟩⟩
    simp only [Spec.BoundingBox.point, hpt] at hq hq' h1 h2 h3 h1' h2' h3'
    have ex : p'.x - p.x = u.x - u'.x := by have := congrArg V3.x (hq ▸ hq'); simp only [V3.add] at this; linarith
    have ey : p'.y - p.y = u.y - u'.y := by have := congrArg V3.y (hq ▸ hq'); simp only [V3.add] at this; linarith
    have ez : p'.z - p.z = u.z - u'.z := by have := congrArg V3.z (hq ▸ hq'); simp only [V3.add] at this; linarith
    have tx : |p'.x - p.x| ≤ s.x / 2 + s'.x / 2 := by rw [ex]; exact (abs_sub _ _).trans (by linarith)
    have ty : |p'.y - p.y| ≤ s.y / 2 + s'.y / 2 := by rw [ey]; exact (abs_sub _ _).trans (by linarith)
    have tz : |p'.z - p.z| ≤ s.z / 2 + s'.z / 2 := by rw [ez]; exact (abs_sub _ _).trans (by linarith)
    have tx' := tx; have ty' := ty; have tz' := tz
    rw [abs_sub_comm] at tx' ty' tz'
    rw [hf] at hii
    simp only [Bool.false_eq_true, false_iff] at hii
    apply hii
    refine ⟨fun i => ?_, fun i => ?_, fun i j => ?_⟩
    · fin_cases i <;> simp [separates1, vecAt, absR, M3.at, Spec.one, V3.sub, kEpsilon] <;> linarith
    · fin_cases i <;> simp [separates2, vecAt, absR, M3.at, Spec.one, V3.sub, kEpsilon] <;> linarith
    · fin_cases i <;> fin_cases j <;> simp [separates3, vecAt, absR, M3.at, Spec.one, V3.sub, kEpsilon] <;> linarith
  · intro hri
    have ht := hii.1 (hin hri)
    have h1 := ht.1
    rcases h with h | h | h
    · apply h1 0; simp [separates1, vecAt, absR, M3.at, Spec.one, V3.sub, kEpsilon]; linarith
    · apply h1 1; simp [separates1, vecAt, absR, M3.at, Spec.one, V3.sub, kEpsilon]; linarith
    · apply h1 2; simp [separates1, vecAt, absR, M3.at, Spec.one, V3.sub, kEpsilon]; linarith

/-- The columns of the relative rotation are unit vectors. -/
theorem relative_col (a c : RollPitchYaw) (i : Fin 3) :
    (a.toMatrix.transpose.mul c.toMatrix).at 0 i ^ 2 + (a.toMatrix.transpose.mul c.toMatrix).at 1 i ^ 2 +
      (a.toMatrix.transpose.mul c.toMatrix).at 2 i ^ 2 = 1 := by
  have oa := (isRotation_toMatrix a).ortho
  have oc := (isRotation_toMatrix c).ortho
  generalize a.toMatrix = m at oa ⊢
  generalize c.toMatrix = n at oc ⊢
  have key : ∀ x y z : ℝ, (m.xx * x + m.yx * y + m.zx * z) ^ 2 + (m.xy * x + m.yy * y + m.zy * z) ^ 2 +
      (m.xz * x + m.yz * y + m.zz * z) ^ 2 = x * x + y * y + z * z := by
    intro x y z
    linear_combination x ^ 2 * oa.rxx + y ^ 2 * oa.ryy + z ^ 2 * oa.rzz + 2 * x * y * oa.rxy + 2 * x * z * oa.rxz +
      2 * y * z * oa.ryz
  fin_cases i
  · exact (key n.xx n.yx n.zx).trans oc.lxx
  · exact (key n.xy n.yy n.zy).trans oc.lyy
  · exact (key n.xz n.yz n.zz).trans oc.lzz

theorem abs_le_one_of_sq {x y z : ℝ} (h : x ^ 2 + y ^ 2 + z ^ 2 = 1) : |x| ≤ 1 ∧ |y| ≤ 1 ∧ |z| ≤ 1 := by
  refine ⟨?_, ?_, ?_⟩ <;> rw [← sq_le_one_iff_abs_le_one] <;> nlinarith [sq_nonneg x, sq_nonneg y, sq_nonneg z]

/-- C71, for all orientations: if the box of the size of the first and the ball about the second, whose radius is half of
the sum of its sizes, are apart along one of the axes of the inertial frame, then `Overlaps` is not `kIntersected`. -/
theorem bounding_box_far {p s p' s' : V3} {o o' : RollPitchYaw} {tol tol' : ℝ} {b b' : BoundingBox}
    (hb : make p s o tol = .ok b) (hb' : make p' s' o' tol' = .ok b')
    (hfar : |p'.x - p.x| > s.x / 2 + 1000001 / 1000000 * (s'.x + s'.y + s'.z) / 2 ∨
      |p'.y - p.y| > s.y / 2 + 1000001 / 1000000 * (s'.x + s'.y + s'.z) / 2 ∨
      |p'.z - p.z| > s.z / 2 + 1000001 / 1000000 * (s'.x + s'.y + s'.z) / 2) :
    ∃ r, b.overlaps b' = .ok r ∧ r ≠ .intersected := by
  obtain ⟨r, i, hr, hi, hd, hin⟩ := overlaps_ok hb hb'
  obtain ⟨i', hi', hii⟩ := isBoxIntersected_ok b b'
  obtain rfl : i = i' := by rw [hi] at hi'; injection hi'
  obtain ⟨_, hx, hy, hz, rfl⟩ := make_ok hb
  obtain ⟨_, hx', hy', hz', rfl⟩ := make_ok hb'
  refine ⟨r, hr, fun hri => ?_⟩
  have ht := hii.1 (hin hri)
  have h1 := ht.1
  simp only at h1
  have hcol := fun i => abs_le_one_of_sq (relative_col o o' i)
  generalize o.toMatrix.transpose.mul o'.toMatrix = m at h1 hcol
  have hsum : ∀ i, s'.x / 2 * absR m 0 i + s'.y / 2 * absR m 1 i + s'.z / 2 * absR m 2 i ≤
      1000001 / 1000000 * (s'.x + s'.y + s'.z) / 2 := by
    intro i
    obtain ⟨c1, c2, c3⟩ := hcol i
    unfold absR kEpsilon
    nlinarith
  rcases hfar with h | h | h
  · exact h1 0 (by have := hsum 0; simp only [separates1, vecAt, V3.sub, Matrix.cons_val_zero]; linarith)
  · exact h1 1 (by have := hsum 1; simp only [separates1, vecAt, V3.sub, Matrix.cons_val_one, Matrix.cons_val_zero]; linarith)
  · exact h1 2 (by have := hsum 2; simp only [separates1, vecAt, V3.sub, Matrix.cons_val]; linarith)

/-- C71, for all orientations: if the centre of the second box is in the largest ball in the first box, then `Overlaps` is
not `kDisjointed`. -/
theorem bounding_box_near {p s p' s' : V3} {o o' : RollPitchYaw} {tol tol' : ℝ} {b b' : BoundingBox}
    (hb : make p s o tol = .ok b) (hb' : make p' s' o' tol' = .ok b')
    (hnear : (p'.sub p).norm ≤ s.x / 2 ∧ (p'.sub p).norm ≤ s.y / 2 ∧ (p'.sub p).norm ≤ s.z / 2) :
    ∃ r, b.overlaps b' = .ok r ∧ r ≠ .disjointed := by
  obtain ⟨r, i, hr, hi, hd, hin⟩ := overlaps_ok hb hb'
  obtain ⟨i', hi', hii⟩ := isBoxIntersected_ok b b'
  obtain rfl : i = i' := by rw [hi] at hi'; injection hi'
  obtain ⟨_, hx, hy, hz, rfl⟩ := make_ok hb
  obtain ⟨_, hx', hy', hz', rfl⟩ := make_ok hb'
  refine ⟨r, hr, fun hri => ?_⟩
  rw [hd hri] at hii
  simp only [Bool.false_eq_true, false_iff] at hii
  have hcol := relative_col o o'
  generalize o.toMatrix.transpose.mul o'.toMatrix = m at hii hcol
  generalize p'.sub p = t at hnear hii
  obtain ⟨n1, n2, n3⟩ := hnear
  have hn0 := norm_nonneg t
  have hn := norm_sq t
  generalize t.norm = n at *
  have a1 : |t.x| ≤ n := abs_le_of_sq_le_sq (by nlinarith [sq_nonneg t.y, sq_nonneg t.z]) hn0
  have a2 : |t.y| ≤ n := abs_le_of_sq_le_sq (by nlinarith [sq_nonneg t.x, sq_nonneg t.z]) hn0
  have a3 : |t.z| ≤ n := abs_le_of_sq_le_sq (by nlinarith [sq_nonneg t.x, sq_nonneg t.y]) hn0
  have hp : ∀ i j, |m.at i j| ≤ absR m i j := fun i j => by unfold absR kEpsilon; linarith
  have hp0 : ∀ i j, 0 ≤ absR m i j := fun i j => (abs_nonneg _).trans (hp i j)
  have two : ∀ {u v w a c A C : ℝ} {x y : ℝ}, |u| ≤ n → |v| ≤ n → n ≤ a → n ≤ c → |x| ≤ A → |y| ≤ C → 0 ≤ w →
      |u * x - v * y| ≤ a * C + c * A + w := by
    intro u v w a c A C x y hu hv ha hc hA hC hw
    have e1 : |u| * |x| ≤ c * A := mul_le_mul (hu.trans hc) hA (abs_nonneg _) (hn0.trans hc)
    have e2 : |v| * |y| ≤ a * C := mul_le_mul (hv.trans ha) hC (abs_nonneg _) (hn0.trans ha)
    calc |u * x - v * y| ≤ |u * x| + |v * y| := abs_sub _ _
      _ = |u| * |x| + |v| * |y| := by rw [abs_mul, abs_mul]
      _ ≤ a * C + c * A + w := by linarith
  have hs0 : ∀ i, 0 ≤ vecAt ⟨s'.x / 2, s'.y / 2, s'.z / 2⟩ i := by
    intro i; fin_cases i <;> simp [vecAt] <;> linarith
  have hb0 : ∀ i, n ≤ vecAt ⟨s.x / 2, s.y / 2, s.z / 2⟩ i := by
    intro i; fin_cases i <;> simp [vecAt] <;> linarith
  have ht : ∀ i, |vecAt t i| ≤ n := by intro i; fin_cases i <;> simp [vecAt] <;> assumption
  apply hii
  refine ⟨fun i => ?_, fun i => ?_, fun i j => ?_⟩
  · unfold separates1
    simp only [gt_iff_lt, not_lt]
    have e1 := mul_nonneg (show 0 ≤ s'.x / 2 by linarith) (hp0 0 i)
    have e2 := mul_nonneg (show 0 ≤ s'.y / 2 by linarith) (hp0 1 i)
    have e3 := mul_nonneg (show 0 ≤ s'.z / 2 by linarith) (hp0 2 i)
    linarith [ht i, hb0 i]
  · unfold separates2
    simp only [gt_iff_lt, not_lt]
    have hc := hcol i
    have e1 : n * |m.at 0 i| ≤ s.x / 2 * absR m 0 i := mul_le_mul n1 (hp 0 i) (abs_nonneg _) (by linarith)
    have e2 : n * |m.at 1 i| ≤ s.y / 2 * absR m 1 i := mul_le_mul n2 (hp 1 i) (abs_nonneg _) (by linarith)
    have e3 : n * |m.at 2 i| ≤ s.z / 2 * absR m 2 i := mul_le_mul n3 (hp 2 i) (abs_nonneg _) (by linarith)
    have h0 := hs0 i
    have k : |t.x * m.at 0 i + t.y * m.at 1 i + t.z * m.at 2 i| ≤ |t.x| * |m.at 0 i| + |t.y| * |m.at 1 i| + |t.z| * |m.at 2 i| := by
      refine (abs_add_three _ _ _).trans ?_
      rw [abs_mul, abs_mul, abs_mul]
    have k1 := mul_le_mul_of_nonneg_right a1 (abs_nonneg (m.at 0 i))
    have k2 := mul_le_mul_of_nonneg_right a2 (abs_nonneg (m.at 1 i))
    have k3 := mul_le_mul_of_nonneg_right a3 (abs_nonneg (m.at 2 i))
    linarith
  · unfold separates3
    simp only [gt_iff_lt, not_lt]
    have h1 := mul_nonneg (hs0 (j + 1)) (hp0 i (j + 1 + 1))
    have h2 := mul_nonneg (hs0 (j + 1 + 1)) (hp0 i (j + 1))
    have := two (w := vecAt ⟨s'.x / 2, s'.y / 2, s'.z / 2⟩ (j + 1) * absR m i (j + 1 + 1) +
      vecAt ⟨s'.x / 2, s'.y / 2, s'.z / 2⟩ (j + 1 + 1) * absR m i (j + 1)) (ht (i + 1 + 1)) (ht (i + 1)) (hb0 (i + 1)) (hb0 (i + 1 + 1))
      (hp (i + 1) j) (hp (i + 1 + 1) j) (by linarith)
    linarith

/-- Two rods with a quarter of a turn: they extend along the first axis of the inertial frame. -/
noncomputable def rod (position : V3) : BoundingBox :=
  ⟨position, ⟨1, 10, 1⟩, ⟨0, 0, Real.pi / 2⟩, 0, ⟨1 / 2, 5, 1 / 2⟩⟩

theorem rod_make (position : V3) : make position ⟨1, 10, 1⟩ ⟨0, 0, Real.pi / 2⟩ 0 = .ok (rod position) := by
  norm_num [make, throwUnless, bind, Except.bind, pure, Except.pure, rod]

theorem rod_matrix : RollPitchYaw.toMatrix ⟨0, 0, Real.pi / 2⟩ = ⟨0, -1, 0, 1, 0, 0, 0, 0, 1⟩ := by
  ext <;> simp [RollPitchYaw.toMatrix]

theorem rod_relative : (RollPitchYaw.toMatrix ⟨0, 0, Real.pi / 2⟩).transpose.mul (RollPitchYaw.toMatrix ⟨0, 0, Real.pi / 2⟩) =
    Spec.one := by
  rw [rod_matrix]; ext <;> simp [Spec.one, M3.transpose, M3.mul]

theorem rod_mem (position q : V3) : Spec.BoundingBox.Mem (rod position) 0 q ↔
    |q.x - position.x| ≤ 5 ∧ |q.y - position.y| ≤ 1 / 2 ∧ |q.z - position.z| ≤ 1 / 2 := by
  rw [← bounding_box_contains (rod_make position)]
  simp only [contains, rod, rod_matrix, M3.mulVec, V3.sub, Bool.and_eq_true, decide_eq_true_eq, abs_le]
  constructor
  · rintro ⟨⟨⟨⟨⟨h1, h2⟩, h3⟩, h4⟩, h5⟩, h6⟩
    refine ⟨⟨?_, ?_⟩, ⟨?_, ?_⟩, ⟨?_, ?_⟩⟩ <;> linarith
  · rintro ⟨⟨h1, h2⟩, ⟨h3, h4⟩, ⟨h5, h6⟩⟩
    refine ⟨⟨⟨⟨⟨?_, ?_⟩, ?_⟩, ?_⟩, ?_⟩, ?_⟩ <;> linarith

/-- C71 fails for rotated boxes: `Overlaps` is `kDisjointed` although the centre of each box is in the other. -/
theorem bounding_box_missed : (rod ⟨0, 0, 0⟩).overlaps (rod ⟨4, 0, 0⟩) = .ok .disjointed ∧
    Spec.BoundingBox.Mem (rod ⟨0, 0, 0⟩) 0 ⟨4, 0, 0⟩ ∧ Spec.BoundingBox.Mem (rod ⟨4, 0, 0⟩) 0 ⟨0, 0, 0⟩ := by
  refine ⟨?_, (rod_mem _ _).2 (by norm_num), (rod_mem _ _).2 (by norm_num [abs_le])⟩
  obtain ⟨r, hr, hc⟩ := bounding_box_contained (rod_make ⟨0, 0, 0⟩) (rod_make ⟨4, 0, 0⟩)
  obtain ⟨r', i, hr', hi, hd, hin⟩ := overlaps_ok (rod_make ⟨0, 0, 0⟩) (rod_make ⟨4, 0, 0⟩)
  obtain rfl : r = r' := by rw [hr] at hr'; injection hr'
  obtain ⟨i', hi', hii⟩ := isBoxIntersected_ok (rod ⟨0, 0, 0⟩) (rod ⟨4, 0, 0⟩)
  obtain rfl : i = i' := by rw [hi] at hi'; injection hi'
  have hnc : r ≠ .contained := by
    intro h
    have := hc.1 h ⟨9, 0, 0⟩ ((rod_mem _ _).2 (by norm_num))
    rw [bounding_box_contains (rod_make ⟨0, 0, 0⟩), rod_mem] at this
    norm_num at this
  have hni : r ≠ .intersected := by
    intro h
    have := (hii.1 (hin h)).1 0
    simp only [rod, rod_relative] at this
    apply this
    simp [separates1, vecAt, absR, M3.at, Spec.one, V3.sub, kEpsilon]
    norm_num
  rw [hr]
  cases r <;> simp_all

/-- C71 fails for rotated boxes: `Overlaps` is `kIntersected` although there are three units between the boxes. -/
theorem bounding_box_apart : (rod ⟨0, 0, 0⟩).overlaps (rod ⟨0, 4, 0⟩) = .ok .intersected ∧
    ∀ q q', Spec.BoundingBox.Mem (rod ⟨0, 0, 0⟩) 0 q → Spec.BoundingBox.Mem (rod ⟨0, 4, 0⟩) 0 q' → 3 ≤ q'.y - q.y := by
  constructor
  · obtain ⟨r, hr, hc⟩ := bounding_box_contained (rod_make ⟨0, 0, 0⟩) (rod_make ⟨0, 4, 0⟩)
    obtain ⟨r', i, hr', hi, hd, hin⟩ := overlaps_ok (rod_make ⟨0, 0, 0⟩) (rod_make ⟨0, 4, 0⟩)
    obtain rfl : r = r' := by rw [hr] at hr'; injection hr'
    obtain ⟨i', hi', hii⟩ := isBoxIntersected_ok (rod ⟨0, 0, 0⟩) (rod ⟨0, 4, 0⟩)
    obtain rfl : i = i' := by rw [hi] at hi'; injection hi'
    have hnc : r ≠ .contained := by
      intro h
      have := hc.1 h ⟨0, 4, 0⟩ ((rod_mem _ _).2 (by norm_num))
      rw [bounding_box_contains (rod_make ⟨0, 0, 0⟩), rod_mem] at this
      norm_num at this
    have hi : i = true := by
      rw [hii]
      simp only [rod, rod_relative]
      refine ⟨fun i => ?_, fun i => ?_, fun i j => ?_⟩
      · fin_cases i <;> simp [separates1, vecAt, absR, M3.at, Spec.one, V3.sub, kEpsilon] <;> norm_num
      · fin_cases i <;> simp [separates2, vecAt, absR, M3.at, Spec.one, V3.sub, kEpsilon] <;> norm_num
      · fin_cases i <;> fin_cases j <;> simp [separates3, vecAt, absR, M3.at, Spec.one, V3.sub, kEpsilon] <;> norm_num
    rw [hr]
    cases r <;> simp_all
  · intro q q' hq hq'
    rw [rod_mem] at hq hq'
    have h1 := (abs_le.1 hq.2.1).2
    have h2 := (abs_le.1 hq'.2.1).1
    simp only at h1 h2
    linarith

/-- The hypotheses of the theorems above hold for a rotated box and a smaller one near its centre. -/
example : ∃ r, (rod ⟨0, 0, 0⟩).overlaps (rod ⟨1 / 4, 1 / 4, 0⟩) = .ok r ∧ r ≠ .disjointed := by
  refine bounding_box_near (rod_make _) (rod_make _) ?_
  have h : (V3.sub ⟨1 / 4, 1 / 4, 0⟩ ⟨0, 0, 0⟩).norm ≤ 1 / 2 := by
    unfold V3.norm
    rw [Real.sqrt_le_left (by norm_num)]
    norm_num [V3.dot, V3.sub]
  exact ⟨h, h.trans (by norm_num), h⟩

example : ∃ r, (rod ⟨0, 0, 0⟩).overlaps (rod ⟨7, 0, 0⟩) = .ok r ∧ r ≠ .intersected :=
  bounding_box_far (rod_make _) (rod_make _) (.inl (by norm_num))

example : ∃ b b', make ⟨0, 0, 0⟩ ⟨1, 2, 3⟩ ⟨0, 0, 0⟩ 0 = .ok b ∧ make ⟨2, 0, 0⟩ ⟨1, 2, 3⟩ ⟨0, 0, 0⟩ 0 = .ok b' ∧
    |(2 : ℝ) - 0| > 1 / 2 + 1 / 2 + (1 + 2 + 3) / 2000000 := by
  rcases bounding_box_make ⟨0, 0, 0⟩ ⟨1, 2, 3⟩ ⟨0, 0, 0⟩ 0 with ⟨_, b, h, _⟩ | ⟨h, _⟩
  · rcases bounding_box_make ⟨2, 0, 0⟩ ⟨1, 2, 3⟩ ⟨0, 0, 0⟩ 0 with ⟨_, b', h', _⟩ | ⟨h', _⟩
    · exact ⟨b, b', h, h', by norm_num⟩
    · norm_num at h'
  · norm_num at h

/-- A rod with an eighth of a turn. -/
noncomputable def thinRod : BoundingBox := ⟨⟨0, 0, 0⟩, ⟨2, 0, 0⟩, ⟨0, 0, Real.pi / 4⟩, 0, ⟨1, 0, 0⟩⟩

/-- C70 fails: the box is not oriented as documented, but with the inverse of the orientation: a rod that should point
from the first to the second axis points away from it. -/
theorem bounding_box_orientation : make ⟨0, 0, 0⟩ ⟨2, 0, 0⟩ ⟨0, 0, Real.pi / 4⟩ 0 = .ok thinRod ∧
    Spec.BoundingBox.DocumentedMem thinRod ⟨Real.sqrt 2 / 2, Real.sqrt 2 / 2, 0⟩ ∧
    thinRod.contains ⟨Real.sqrt 2 / 2, Real.sqrt 2 / 2, 0⟩ = false ∧
    thinRod.contains ⟨Real.sqrt 2 / 2, -(Real.sqrt 2 / 2), 0⟩ = true ∧
    ¬Spec.BoundingBox.DocumentedMem thinRod ⟨Real.sqrt 2 / 2, -(Real.sqrt 2 / 2), 0⟩ := by
  have hs : Real.sqrt 2 * Real.sqrt 2 = 2 := Real.mul_self_sqrt (by norm_num)
  have hp : 0 < Real.sqrt 2 := Real.sqrt_pos.2 (by norm_num)
  have hm : RollPitchYaw.toMatrix ⟨0, 0, Real.pi / 4⟩ =
      ⟨Real.sqrt 2 / 2, -(Real.sqrt 2 / 2), 0, Real.sqrt 2 / 2, Real.sqrt 2 / 2, 0, 0, 0, 1⟩ := by
    ext <;> simp [RollPitchYaw.toMatrix]
  refine ⟨by norm_num [make, throwUnless, bind, Except.bind, pure, Except.pure, thinRod],
    ⟨⟨1, 0, 0⟩, by norm_num [Spec.Within, thinRod], ?_⟩, ?_, ?_, ?_⟩
  · ext <;> simp [thinRod, hm, M3.mulVec, V3.add]
  · simp only [contains, thinRod, hm, M3.mulVec, V3.sub, Bool.and_eq_false_iff, decide_eq_false_iff_not]
    left; left; left; right
    nlinarith
  · simp only [contains, thinRod, hm, M3.mulVec, V3.sub, Bool.and_eq_true, decide_eq_true_eq]
    refine ⟨⟨⟨⟨⟨?_, ?_⟩, ?_⟩, ?_⟩, ?_⟩, ?_⟩ <;> nlinarith
  · rintro ⟨u, ⟨_, hy, hz⟩, he⟩
    simp only [thinRod, zero_div, add_zero, abs_nonpos_iff] at hy hz
    have ex := congrArg V3.x he
    have ey := congrArg V3.y he
    simp only [thinRod, hm, M3.mulVec, V3.add, hy, hz] at ex ey
    nlinarith

end Maliput.Props
