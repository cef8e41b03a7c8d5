import Mathlib.Analysis.Convex.Combination
import Mathlib.Algebra.BigOperators.Fin
import Mathlib.Algebra.Order.Field.Basic
import Mathlib.Tactic.Linarith
import Mathlib.Tactic.Ring
import Mathlib.Tactic.FieldSimp
import Mathlib.Tactic.IntervalCases
import Mathlib.Tactic.NormNum
import Verif.Spec.RoadMesh

set_option autoImplicit false

/-! Lemmas about the faces made for a lane: the geometry of the plane of the coordinates s and r. -/
namespace Maliput.RoadMesh

open Maliput.RoadMesh.Spec
open Maliput.RouteGraph (Stop)

/-- A weighted mean of two numbers. -/
theorem split_weight {w lo hi x : ℚ} (hw : 0 ≤ w) (h1 : w * lo ≤ x) (h2 : x ≤ w * hi) :
    ∃ a b : ℚ, 0 ≤ a ∧ 0 ≤ b ∧ a + b = w ∧ a * lo + b * hi = x := by
  rcases eq_or_lt_of_le (h1.trans h2) with h | h
  · refine ⟨w, 0, hw, le_rfl, by ring, ?_⟩
    linarith
  · have hd : 0 < w * hi - w * lo := by linarith
    have hwp : 0 < w := by
      rcases eq_or_lt_of_le hw with h0 | h0
      · subst h0; simp at hd
      · exact h0
    have hlh : 0 < hi - lo := by
      by_contra hc
      nlinarith
    refine ⟨(w * hi - x) / (hi - lo), (x - w * lo) / (hi - lo), div_nonneg (by linarith) hlh.le,
      div_nonneg (by linarith) hlh.le, ?_, ?_⟩
    · field_simp; ring
    · field_simp; ring

/-- A weighted mean of three points is in their convex hull. -/
theorem mem_hull3 {S : Set (ℚ × ℚ)} {x y z : ℚ × ℚ} (hx : x ∈ S) (hy : y ∈ S) (hz : z ∈ S) {a b c : ℚ}
    (ha : 0 ≤ a) (hb : 0 ≤ b) (hc : 0 ≤ c) (h : a + b + c = 1) : a • x + b • y + c • z ∈ convexHull ℚ S := by
  have := (convex_convexHull ℚ S).sum_mem (t := Finset.univ) (w := ![a, b, c]) (z := ![x, y, z])
    (by intro i _; fin_cases i <;> simp [ha, hb, hc]) (by simpa [Fin.sum_univ_three] using h)
    (by intro i _; fin_cases i <;> simp <;> apply subset_convexHull <;> assumption)
  simpa [Fin.sum_univ_three] using this

/-- A weighted mean of four points is in their convex hull. -/
theorem mem_hull4 {S : Set (ℚ × ℚ)} {x y z u : ℚ × ℚ} (hx : x ∈ S) (hy : y ∈ S) (hz : z ∈ S) (hu : u ∈ S)
    {a b c d : ℚ} (ha : 0 ≤ a) (hb : 0 ≤ b) (hc : 0 ≤ c) (hd : 0 ≤ d) (h : a + b + c + d = 1) :
    a • x + b • y + c • z + d • u ∈ convexHull ℚ S := by
  have := (convex_convexHull ℚ S).sum_mem (t := Finset.univ) (w := ![a, b, c, d]) (z := ![x, y, z, u])
    (by intro i _; fin_cases i <;> simp [ha, hb, hc, hd]) (by simpa [Fin.sum_univ_four] using h)
    (by intro i _; fin_cases i <;> simp <;> apply subset_convexHull <;> assumption)
  simpa [Fin.sum_univ_four] using this

/-- A strip is convex. -/
theorem strip_convex (s0 s1 lo0 lo1 hi0 hi1 : ℚ) : Convex ℚ (Strip s0 s1 lo0 lo1 hi0 hi1) := by
  rw [convex_iff_forall_pos]
  rintro ⟨x1, x2⟩ ⟨t, t0, t1, hx, hxl, hxh⟩ ⟨y1, y2⟩ ⟨u, u0, u1, hy, hyl, hyh⟩ a b ha hb hab
  simp only at hx hxl hxh hy hyl hyh
  refine ⟨a * t + b * u, by positivity, ?_, ?_, ?_, ?_⟩
  · calc a * t + b * u ≤ a * 1 + b * 1 := by gcongr
      _ = 1 := by linarith
  all_goals obtain rfl : b = 1 - a := by linarith
  all_goals simp only [Prod.smul_mk, smul_eq_mul, Prod.mk_add_mk]
  · rw [hx, hy]; ring
  · have h1 := mul_le_mul_of_nonneg_left hxl ha.le
    have h2 := mul_le_mul_of_nonneg_left hyl hb.le
    linarith
  · have h1 := mul_le_mul_of_nonneg_left hxh ha.le
    have h2 := mul_le_mul_of_nonneg_left hyh hb.le
    linarith

/-- The corners of a strip. -/
theorem corners_mem {s0 s1 lo0 lo1 hi0 hi1 : ℚ} (h0 : lo0 ≤ hi0) (h1 : lo1 ≤ hi1) :
    (s0, lo0) ∈ Strip s0 s1 lo0 lo1 hi0 hi1 ∧ (s0, hi0) ∈ Strip s0 s1 lo0 lo1 hi0 hi1 ∧
    (s1, lo1) ∈ Strip s0 s1 lo0 lo1 hi0 hi1 ∧ (s1, hi1) ∈ Strip s0 s1 lo0 lo1 hi0 hi1 := by
  refine ⟨⟨0, ?_⟩, ⟨0, ?_⟩, ⟨1, ?_⟩, ⟨1, ?_⟩⟩ <;> norm_num [h0, h1]

/-- The convex hull of the corners is the strip. -/
theorem hull_strip {s0 s1 lo0 lo1 hi0 hi1 : ℚ} (h0 : lo0 ≤ hi0) (h1 : lo1 ≤ hi1) {S : Set (ℚ × ℚ)}
    (hS : ∀ p, p ∈ S ↔ p = (s0, lo0) ∨ p = (s0, hi0) ∨ p = (s1, lo1) ∨ p = (s1, hi1)) :
    convexHull ℚ S = Strip s0 s1 lo0 lo1 hi0 hi1 := by
  apply Set.Subset.antisymm
  · apply convexHull_min _ (strip_convex _ _ _ _ _ _)
    intro p hp
    obtain ⟨c1, c2, c3, c4⟩ := corners_mem (s0 := s0) (s1 := s1) h0 h1
    rcases (hS p).1 hp with rfl | rfl | rfl | rfl <;> assumption
  · rintro ⟨p1, p2⟩ ⟨t, t0, t1, hp, hl, hh⟩
    simp only at hp hl hh
    obtain ⟨a, b, ha, hb, hab, hx⟩ := split_weight (w := 1) (lo := (1 - t) * lo0 + t * lo1)
      (hi := (1 - t) * hi0 + t * hi1) (x := p2) one_pos.le (by linarith) (by linarith)
    have := mem_hull4 (S := S) (x := (s0, lo0)) (y := (s0, hi0)) (z := (s1, lo1)) (u := (s1, hi1))
      ((hS _).2 (by simp)) ((hS _).2 (by simp)) ((hS _).2 (by simp)) ((hS _).2 (by simp))
      (a := (1 - t) * a) (b := (1 - t) * b) (c := t * a) (d := t * b)
      (mul_nonneg (by linarith) ha) (mul_nonneg (by linarith) hb) (mul_nonneg t0 ha) (mul_nonneg t0 hb)
      (by linear_combination hab)
    convert this using 1
    simp only [Prod.smul_mk, smul_eq_mul, Prod.mk_add_mk, Prod.mk.injEq]
    constructor
    · rw [hp]; linear_combination (-(1 - t) * s0 - t * s1) * hab
    · rw [← hx]; ring

/-- Two strips that meet. -/
theorem strip_union {s0 s1 lo0 lo1 mid0 mid1 hi0 hi1 : ℚ} (h0 : lo0 ≤ mid0) (h1 : lo1 ≤ mid1) (h2 : mid0 ≤ hi0)
    (h3 : mid1 ≤ hi1) :
    Strip s0 s1 lo0 lo1 mid0 mid1 ∪ Strip s0 s1 mid0 mid1 hi0 hi1 = Strip s0 s1 lo0 lo1 hi0 hi1 := by
  ext ⟨p1, p2⟩
  constructor
  · rintro (⟨t, t0, t1, hp, hl, hh⟩ | ⟨t, t0, t1, hp, hl, hh⟩) <;> simp only at hp hl hh <;>
      refine ⟨t, t0, t1, hp, ?_, ?_⟩ <;> simp only <;> try assumption
    · have := mul_le_mul_of_nonneg_left h2 (sub_nonneg.2 t1)
      have := mul_le_mul_of_nonneg_left h3 t0
      linarith
    · have := mul_le_mul_of_nonneg_left h0 (sub_nonneg.2 t1)
      have := mul_le_mul_of_nonneg_left h1 t0
      linarith
  · rintro ⟨t, t0, t1, hp, hl, hh⟩
    simp only at hp hl hh
    rcases le_total p2 ((1 - t) * mid0 + t * mid1) with h | h
    · exact .inl ⟨t, t0, t1, hp, hl, h⟩
    · exact .inr ⟨t, t0, t1, hp, h, hh⟩

/-- No faces cover nothing. -/
theorem covered_nil : covered [] = ∅ := by ext p; simp [covered]

/-- What some faces cover. -/
theorem covered_cons (f : SrhFace) (fs : List SrhFace) : covered (f :: fs) = area f ∪ covered fs := by
  ext p; simp [covered]

/-- What some faces cover. -/
theorem covered_append (fs gs : List SrhFace) : covered (fs ++ gs) = covered fs ∪ covered gs := by
  ext p
  simp only [covered, List.mem_append, Set.mem_ofPred_eq, Set.mem_union]
  constructor
  · rintro ⟨f, h | h, hp⟩
    · exact .inl ⟨f, h, hp⟩
    · exact .inr ⟨f, h, hp⟩
  · rintro (⟨f, h, hp⟩ | ⟨f, h, hp⟩)
    · exact ⟨f, .inl h, hp⟩
    · exact ⟨f, .inr h, hp⟩

/-- A face whose corners are those of a strip. -/
theorem area_strip {s0 s1 lo0 lo1 hi0 hi1 : ℚ} (h0 : lo0 ≤ hi0) (h1 : lo1 ≤ hi1) (f : SrhFace)
    (hf : ∀ p, (∃ v ∈ f.vertices, p = (v.s, v.r)) ↔ p = (s0, lo0) ∨ p = (s0, hi0) ∨ p = (s1, lo1) ∨ p = (s1, hi1)) :
    area f = Strip s0 s1 lo0 lo1 hi0 hi1 := hull_strip h0 h1 hf

/-- The two triangles cover the strip. -/
theorem triangles_covered (e : ℚ → ℚ → ℚ) (s0 s1 : ℚ) (b0 b1 : RBounds) :
    covered (triangles e s0 s1 b0 b1) = Between s0 s1 b0 b1 := by
  have w0 : b0.min ≤ b0.max := b0.min_le.trans b0.le_max
  have w1 : b1.min ≤ b1.max := b1.min_le.trans b1.le_max
  obtain ⟨c1, c2, c3, c4⟩ := corners_mem (s0 := s0) (s1 := s1) w0 w1
  rw [triangles, covered_cons, covered_cons, covered_nil, Set.union_empty]
  apply Set.Subset.antisymm
  · apply Set.union_subset <;> apply convexHull_min _ (strip_convex _ _ _ _ _ _) <;> rintro p ⟨v, hv, rfl⟩ <;>
      simp only [List.mem_cons, List.not_mem_nil, or_false] at hv <;> rcases hv with rfl | rfl | rfl <;> assumption
  · rintro ⟨p1, p2⟩ ⟨t, t0, t1, hp, hl, hh⟩
    simp only at hp hl hh
    rcases le_total ((1 - t) * b0.min + t * b1.max) p2 with h | h
    · left
      obtain ⟨a, b, ha, hb, hab, hx⟩ := split_weight (w := 1 - t) (lo := b0.min) (hi := b0.max) (x := p2 - t * b1.max)
        (by linarith) (by linarith) (by linarith)
      have := mem_hull3 (S := {p | ∃ v ∈ [vertex e s0 b0.max, vertex e s0 b0.min, vertex e s1 b1.max], p = (v.s, v.r)})
        (x := (s0, b0.min)) (y := (s0, b0.max)) (z := (s1, b1.max)) (by simp [vertex]) (by simp [vertex])
        (by simp [vertex]) ha hb t0 (by linarith)
      suffices hh : ((p1, p2) : ℚ × ℚ) = a • (s0, b0.min) + b • (s0, b0.max) + t • (s1, b1.max) by rw [hh]; exact this
      simp only [Prod.smul_mk, smul_eq_mul, Prod.mk_add_mk, Prod.mk.injEq]
      constructor
      · rw [hp]; linear_combination (-s0) * hab
      · linear_combination -hx
    · right
      obtain ⟨a, b, ha, hb, hab, hx⟩ := split_weight (w := t) (lo := b1.min) (hi := b1.max) (x := p2 - (1 - t) * b0.min)
        t0 (by linarith) (by linarith)
      have := mem_hull3 (S := {p | ∃ v ∈ [vertex e s0 b0.min, vertex e s1 b1.min, vertex e s1 b1.max], p = (v.s, v.r)})
        (x := (s0, b0.min)) (y := (s1, b1.min)) (z := (s1, b1.max)) (by simp [vertex]) (by simp [vertex])
        (by simp [vertex]) (a := 1 - t) (by linarith) ha hb (by linarith)
      suffices hh : ((p1, p2) : ℚ × ℚ) = (1 - t) • (s0, b0.min) + a • (s1, b1.min) + b • (s1, b1.max) by
        rw [hh]; exact this
      simp only [Prod.smul_mk, smul_eq_mul, Prod.mk_add_mk, Prod.mk.injEq]
      constructor
      · rw [hp]; linear_combination (-s1) * hab
      · linear_combination -hx

/-- Three corners in counterclockwise order. -/
theorem ccw3 {a b c n : Srh} (h1 : 0 ≤ turn a b c) (h2 : 0 ≤ turn b c a) (h3 : 0 ≤ turn c a b) :
    Counterclockwise ⟨[a, b, c], n⟩ := by
  intro i hi x y z
  simp only [List.length_cons, List.length_nil] at hi ⊢
  interval_cases i <;> simp <;> rintro rfl rfl rfl <;> assumption

/-- Four corners in counterclockwise order. -/
theorem strict4 {a b c d n : Srh} (h1 : 0 < turn a b c) (h2 : 0 < turn b c d) (h3 : 0 < turn c d a)
    (h4 : 0 < turn d a b) : StrictlyCounterclockwise ⟨[a, b, c, d], n⟩ := by
  intro i hi x y z
  simp only [List.length_cons, List.length_nil] at hi ⊢
  interval_cases i <;> simp <;> rintro rfl rfl rfl <;> assumption

/-- Three corners in counterclockwise order. -/
theorem strict3 {a b c n : Srh} (h1 : 0 < turn a b c) (h2 : 0 < turn b c a) (h3 : 0 < turn c a b) :
    StrictlyCounterclockwise ⟨[a, b, c], n⟩ := by
  intro i hi x y z
  simp only [List.length_cons, List.length_nil] at hi ⊢
  interval_cases i <;> simp <;> rintro rfl rfl rfl <;> assumption

/-- The triangles are in counterclockwise order. -/
theorem triangles_ccw (e : ℚ → ℚ → ℚ) {s0 s1 : ℚ} (hs : s0 ≤ s1) (b0 b1 : RBounds) :
    ∀ f ∈ triangles e s0 s1 b0 b1, Counterclockwise f ∧ f.normal = up := by
  have w0 := mul_nonneg (sub_nonneg.2 hs) (sub_nonneg.2 (b0.min_le.trans b0.le_max))
  have w1 := mul_nonneg (sub_nonneg.2 hs) (sub_nonneg.2 (b1.min_le.trans b1.le_max))
  intro f hf
  simp only [triangles, List.mem_cons, List.not_mem_nil, or_false] at hf
  rcases hf with rfl | rfl <;> refine ⟨ccw3 ?_ ?_ ?_, rfl⟩ <;> simp only [turn, vertex] <;> linarith

end Maliput.RoadMesh
