import Verif.Lemmas.DouglasPeucker
import Mathlib.Algebra.Order.Ring.Rat

set_option autoImplicit false

/-! Properties C36 and C58: simplification of contours, distances to lines and planes. -/
namespace Maliput.Props

open Maliput.Linear Maliput.DouglasPeucker
open Maliput.DouglasPeucker.Spec

/-- C36: for any edges and distances, the simplification keeps the first and the last element and the order, and
every element it drops is within the tolerance of the line through the kept elements around it, if its distance is
defined. -/
theorem douglasPeucker_simplifies {α K : Type} [LinearOrder K] (dist : α → α → α → Option K)
    (hd : ∀ a b, (∃ f : α → K, ∀ x, dist a b x = some (f x)) ∨ ∀ x, dist a b x = none) (tolerance : K)
    (l : List α) (hl : l ≠ []) :
    Simplified (fun a b z => ∀ d, dist a b z = some d → d ≤ tolerance) l (simplify dist tolerance l) :=
  simplify_spec hd tolerance l.length l le_rfl hl

/-- C36: the simplified contour keeps the first and the last vertex and the order, and every dropped vertex is within
the tolerance of the line through the kept vertices around it, provided that these are at different positions.  What is
missing: dropped vertices between kept vertices at the same position, see `contour_closed_dropped`. -/
theorem contour_simplified_partial {α : Type} (pos : α → V3) (tolerance : ℝ) (contour : List α) (h : contour ≠ []) :
    Simplified (fun a b z => pos a ≠ pos b →
        ∃ t, distance (pos z) (along (pos a) ⟨(pos b).x - (pos a).x, (pos b).y - (pos a).y, (pos b).z - (pos a).z⟩ t) ≤
          tolerance)
      contour (simplifyContour pos tolerance contour) := by
  unfold simplifyContour
  split
  · exact simplified_refl _ _ h
  · obtain ⟨ks, h1, h2, h3, h4⟩ := simplify_spec (lineDistance_uniform pos) tolerance contour.length contour le_rfl h
    refine ⟨ks, h1, h2, h3, h4.imp ?_⟩
    rintro i j ⟨hij, hk⟩
    refine ⟨hij, fun k hik hkj x y z hx hy hz hne => ?_⟩
    obtain ⟨s, hs, -⟩ := lineDistance_some hne (pos z)
    exact ⟨s, hk k hik hkj x y z hx hy hz _ hs⟩

/-- C36 is false without the proviso: if the first and the last vertex of a contour are at the same position, everything
between them is dropped, however far away. -/
theorem contour_closed_dropped {α : Type} (pos : α → V3) (tolerance : ℝ) (first last : α) (inner : List α)
    (hlen : 2 ≤ inner.length) (h : pos first = pos last) :
    simplifyContour pos tolerance (first :: inner ++ [last]) = [first, last] := by
  obtain ⟨second, rest, rfl⟩ : ∃ s r, inner = s :: r := List.exists_cons_of_ne_nil (by rintro rfl; simp at hlen)
  rw [simplifyContour, if_neg (by simp at hlen ⊢; omega)]
  have e : first :: (second :: rest) ++ [last] = first :: second :: (rest ++ [last]) := by simp
  have hl : (second :: (rest ++ [last])).getLast (by simp) = last := by simp
  rw [e, simplify_ends, hl]
  intro x _ d hx
  rw [hl, lineDistance_none h] at hx
  cases hx

/-- A contour all of whose vertices are within the tolerance of its first vertex becomes a face of two vertices. -/
theorem contour_vanishes {α : Type} (pos : α → V3) (tolerance : ℝ) (first last : α) (inner : List α)
    (hlen : 2 ≤ inner.length) (h : ∀ x ∈ first :: inner, distance (pos x) (pos first) ≤ tolerance) :
    simplifyContour pos tolerance (first :: inner ++ [last]) = [first, last] := by
  by_cases hne : pos first = pos last
  · exact contour_closed_dropped pos tolerance first last inner hlen hne
  · obtain ⟨second, rest, rfl⟩ : ∃ s r, inner = s :: r := List.exists_cons_of_ne_nil (by rintro rfl; simp at hlen)
    rw [simplifyContour, if_neg (by simp at hlen ⊢; omega)]
    have e : first :: (second :: rest) ++ [last] = first :: second :: (rest ++ [last]) := by simp
    have hl : (second :: (rest ++ [last])).getLast (by simp) = last := by simp
    rw [e, simplify_ends, hl]
    intro x hx d hd
    rw [hl] at hd
    obtain ⟨s, hs, hmin⟩ := lineDistance_some hne (pos x)
    rw [hs, Option.some.injEq] at hd
    rw [← hd]
    refine (hmin 0).trans ?_
    have : along (pos first) ((pos last).sub (pos first)) 0 = pos first := by simp [along]
    rw [this]
    refine h x ?_
    have : first :: (second :: (rest ++ [last])).dropLast = first :: second :: rest := by
      rw [← List.cons_append, List.dropLast_concat]
    rwa [this] at hx

/-- C58: `DistanceToALine` is the least of the Euclidean distances to the points of the line, if its direction is not
the null vector; otherwise it is NaN. -/
theorem distanceToALine_least (p r q : V3) :
    (r ≠ ⟨0, 0, 0⟩ → ∃ d, distanceToALine p r q = some d ∧ IsLeast {d | ∃ t, d = distance q (along p r t)} d) ∧
    (r = ⟨0, 0, 0⟩ → distanceToALine p r q = none) := by
  constructor
  · intro h
    have hr : r.norm ≠ 0 := fun hc => h (norm_eq_zero.1 hc)
    have hrr : r.dot r ≠ 0 := by rw [← norm_sq]; exact mul_ne_zero hr hr
    refine ⟨_, distanceToALine_eq p r q hr, ⟨_, rfl⟩, ?_⟩
    rintro d ⟨t, rfl⟩
    apply Real.sqrt_le_sqrt
    have := foot_line (q.sub p) r t (r.dot (q.sub p) / r.dot r) (by rw [div_mul_cancel₀ _ hrr])
    simp only [V3.sub, along] at this ⊢
    calc _ = _ := by ring
      _ ≤ _ := this
      _ = _ := by ring
  · intro h
    have := norm_eq_zero.2 h
    simp [distanceToALine, V3.normalized, this]

/-- C58: `DistanceToAPlane` is the least of the Euclidean distances to the points of the plane; it aborts if the normal
is the null vector. -/
theorem distanceToAPlane_least (n p q : V3) :
    (n ≠ ⟨0, 0, 0⟩ → ∃ d, distanceToAPlane n p q = .ok d ∧ IsLeast {d | ∃ x, InPlane n p x ∧ d = distance q x} d) ∧
    (n = ⟨0, 0, 0⟩ → distanceToAPlane n p q = .error .aborts) := by
  constructor
  · intro h
    have hn : n.norm ≠ 0 := fun hc => h (norm_eq_zero.1 hc)
    have hpos : 0 < n.norm := lt_of_le_of_ne (norm_nonneg n) (Ne.symm hn)
    have hnn : n.dot n ≠ 0 := by rw [← norm_sq]; exact mul_ne_zero hn hn
    refine ⟨|(n.dot q - n.dot p) / n.norm|, by simp [distanceToAPlane, hn], ⟨⟨q.x - (n.dot q - n.dot p) / n.dot n * n.x,
      q.y - (n.dot q - n.dot p) / n.dot n * n.y, q.z - (n.dot q - n.dot p) / n.dot n * n.z⟩, ?_, ?_⟩, ?_⟩
    · have e : (n.dot q - n.dot p) / n.dot n * n.dot n = n.dot q - n.dot p := div_mul_cancel₀ _ hnn
      generalize (n.dot q - n.dot p) / n.dot n = k at e
      simp only [InPlane, V3.dot] at e ⊢
      linarith
    · generalize hc : n.dot q - n.dot p = c
      have hs : distance q ⟨q.x - c / n.dot n * n.x, q.y - c / n.dot n * n.y, q.z - c / n.dot n * n.z⟩ =
          Real.sqrt ((c / n.norm) ^ 2) := by
        unfold distance
        congr 1
        have : (c / n.norm) ^ 2 = (c / n.dot n) ^ 2 * n.dot n := by
          rw [← norm_sq]; field_simp
        rw [this]
        simp only [V3.dot]; ring
      rw [hs, Real.sqrt_sq_eq_abs]
    · rintro d ⟨x, hx, rfl⟩
      apply Real.le_sqrt_of_sq_le
      rw [sq_abs, div_pow, div_le_iff₀ (by positivity)]
      have h1 := cauchy n (q.sub x)
      have h2 : n.dot (q.sub x) = n.dot q - n.dot p := by
        simp only [InPlane, V3.dot, V3.sub] at hx ⊢; linarith
      rw [h2] at h1
      have h3 : n.norm ^ 2 = n.dot n := by rw [← norm_sq]; ring
      rw [h3]
      refine h1.trans (le_of_eq ?_)
      simp only [V3.dot, V3.sub]; ring
  · intro h
    have := norm_eq_zero.2 h
    simp [distanceToAPlane, this]

/-! A polyline that is simplified, with the vertical distance to the line over rational numbers, and a square. -/

/-- The distance of the ordinates to the line, undefined for vertical lines. -/
def verticalDistance (a b x : ℚ × ℚ) : Option ℚ :=
  if a.1 = b.1 then none else some |x.2 - (a.2 + (b.2 - a.2) / (b.1 - a.1) * (x.1 - a.1))|

example : simplify verticalDistance (1 / 2) [(0, 0), (1, 1 / 4), (2, 5), (3, 5), (4, 5), (5, 5 + 1 / 3), (6, 0)] =
    [(0, 0), (1, 1 / 4), (2, 5), (3, 5), (5, 5 + 1 / 3), (6, 0)] := by
  norm_num [simplify, maxElement, maxFrom, less, verticalDistance, abs_of_nonneg, abs_of_neg]

example (a b : ℚ × ℚ) : (∃ f : ℚ × ℚ → ℚ, ∀ x, verticalDistance a b x = some (f x)) ∨
    ∀ x, verticalDistance a b x = none := by
  unfold verticalDistance
  by_cases h : a.1 = b.1
  · exact .inr fun x => by simp [h]
  · exact .inl ⟨_, fun x => by simp [h]; rfl⟩

example : simplifyContour (fun p : V3 => p) 2 [⟨0, 0, 0⟩, ⟨1, 0, 0⟩, ⟨1, 1, 0⟩, ⟨0, 1, 0⟩] = [⟨0, 0, 0⟩, ⟨0, 1, 0⟩] := by
  refine contour_vanishes _ _ _ _ ([⟨1, 0, 0⟩, ⟨1, 1, 0⟩] : List V3) (by simp) ?_
  intro x hx
  simp only [List.mem_cons, List.not_mem_nil, or_false] at hx
  apply Real.sqrt_le_iff.2
  rcases hx with rfl | rfl | rfl <;> norm_num

example : ∃ contour : List V3, simplifyContour id 1 contour = [⟨0, 0, 0⟩, ⟨0, 0, 0⟩] ∧
    ∃ x ∈ contour, ∀ t, 1 < distance x (along ⟨0, 0, 0⟩ ⟨0, 0, 0⟩ t) := by
  refine ⟨⟨0, 0, 0⟩ :: [⟨9, 0, 0⟩, ⟨0, 9, 0⟩] ++ [⟨0, 0, 0⟩],
    contour_closed_dropped id 1 _ _ [⟨9, 0, 0⟩, ⟨0, 9, 0⟩] (by simp) rfl, ⟨9, 0, 0⟩, by simp, fun t => ?_⟩
  apply Real.lt_sqrt_of_sq_lt
  norm_num [along]

end Maliput.Props
