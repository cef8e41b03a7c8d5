import Verif.Spec.CubicSpline
import Mathlib.Tactic.Linarith
import Mathlib.Tactic.LinearCombination
import Mathlib.Tactic.Positivity
import Mathlib.Tactic.FieldSimp
import Mathlib.Algebra.Order.BigOperators.Group.Finset
import Mathlib.Algebra.BigOperators.Group.Finset.Basic
import Mathlib.Algebra.BigOperators.Intervals
import Mathlib.Data.Finset.Max

set_option autoImplicit false

/-! The systems of equations of cubic splines. -/
namespace Maliput.Piecewise

open Maliput Poly Spec

section eqs
variable {R : Type} [Field R]

/-- The equations between the coefficients of adjacent segments, for steps `h`, right hand sides `y` and `m`
segments. -/
structure Joined (h y : Nat → R) (m : Nat) (x : Nat → R) : Prop where
  value : ∀ i < m, x (3 * i) * h i + x (3 * i + 1) * h i ^ 2 + x (3 * i + 2) * h i ^ 3 = y i
  slope : ∀ i, i + 1 < m → x (3 * i) + 2 * x (3 * i + 1) * h i + 3 * x (3 * i + 2) * h i ^ 2 = x (3 * (i + 1))
  bend : ∀ i, i + 1 < m → x (3 * i + 1) + 3 * x (3 * i + 2) * h i = x (3 * (i + 1) + 1)

theorem solves_append (a b : List (Row R)) (x : Nat → R) : Solves (a ++ b) x ↔ Solves a x ∧ Solves b x := by
  unfold Solves
  constructor
  · intro h; exact ⟨fun r hr => h r (by simp [hr]), fun r hr => h r (by simp [hr])⟩
  · rintro ⟨h1, h2⟩ r hr
    rcases List.mem_append.1 hr with hr | hr
    · exact h1 r hr
    · exact h2 r hr

/-- The same rows with zero on the right. -/
def zeroRhs (rows : List (Row R)) : List (Row R) := rows.map fun r => ⟨r.entries, 0⟩

theorem solves_zero (rows : List (Row R)) (x : Nat → R) :
    (∀ r ∈ rows, Row.left r x = 0) ↔ Solves (zeroRhs rows) x := by
  simp [Solves, zeroRhs, Row.left]

variable [CharZero R]

theorem interior_iff (ts ys : List R) (m : Nat) (hm : ts.length = m + 1) (h1 : 1 ≤ m) (x : Nat → R) :
    Solves (interiorRows ts ys) x ↔ Joined (stepAt ts) (fun i => ys.getD (i + 1) 0 - ys.getD i 0) m x := by
  have e : Solves (interiorRows ts ys) x ↔ ∀ i < m,
      (x (3 * i) * stepAt ts i + x (3 * i + 1) * stepAt ts i ^ 2 + x (3 * i + 2) * stepAt ts i ^ 3 =
        ys.getD (i + 1) 0 - ys.getD i 0) ∧
      (i + 1 < m → x (3 * i) + 2 * x (3 * i + 1) * stepAt ts i + 3 * x (3 * i + 2) * stepAt ts i ^ 2 = x (3 * (i + 1)) ∧
        x (3 * i + 1) + 3 * x (3 * i + 2) * stepAt ts i = x (3 * (i + 1) + 1)) := by
    unfold Solves interiorRows
    constructor
    · intro h i hi
      have hmem := fun r hr => h r (List.mem_flatMap.2 ⟨i, List.mem_range.2 (by omega), hr⟩)
      constructor
      · have := hmem _ (List.mem_cons_self ..)
        simp only [Row.left, List.map, List.sum_cons, List.sum_nil] at this
        rw [← this]; ring
      · intro hi2
        have hne : i ≠ ts.length - 2 := by omega
        simp only [if_pos hne] at hmem
        have k1 := hmem _ (List.mem_cons_of_mem _ (List.mem_cons_self ..))
        have k2 := hmem _ (List.mem_cons_of_mem _ (List.mem_cons_of_mem _ (List.mem_cons_self ..)))
        simp only [Row.left, List.map, List.sum_cons, List.sum_nil] at k1 k2
        refine ⟨by linear_combination k1, ?_⟩
        have two : (2 : R) ≠ 0 := two_ne_zero
        apply mul_left_cancel₀ two
        linear_combination k2
    · intro h r hr
      obtain ⟨i, hi, hr⟩ := List.mem_flatMap.1 hr
      obtain ⟨k1, k2⟩ := h i (by have := List.mem_range.1 hi; omega)
      rcases List.mem_cons.1 hr with rfl | hr
      · simp only [Row.left, List.map, List.sum_cons, List.sum_nil, Nat.add_zero]; rw [← k1]; ring
      · split at hr
        · rename_i hne
          obtain ⟨k2, k3⟩ := k2 (by have := List.mem_range.1 hi; omega)
          rcases List.mem_cons.1 hr with rfl | hr
          · simp only [Row.left, List.map, List.sum_cons, List.sum_nil, Nat.add_zero]; linear_combination k2
          · rcases List.mem_cons.1 hr with rfl | hr
            · simp only [Row.left, List.map, List.sum_cons, List.sum_nil]; linear_combination 2 * k3
            · cases hr
        · cases hr
  rw [e]
  constructor
  · intro h
    exact ⟨fun i hi => (h i hi).1, fun i hi => ((h i (by omega)).2 hi).1, fun i hi => ((h i (by omega)).2 hi).2⟩
  · rintro ⟨a, b, c⟩ i hi
    exact ⟨a i hi, fun h => ⟨b i h, c i h⟩⟩

theorem interior_zero_iff (ts ys : List R) (m : Nat) (hm : ts.length = m + 1) (h1 : 1 ≤ m) (x : Nat → R) :
    Solves (zeroRhs (interiorRows ts ys)) x ↔ Joined (stepAt ts) (fun _ => 0) m x := by
  have e : zeroRhs (interiorRows ts ys) = interiorRows ts ([] : List R) := by
    unfold zeroRhs interiorRows
    rw [List.map_flatMap]
    congr 1
    funext i
    rw [List.map_cons]
    split <;> simp
  rw [e, interior_iff ts [] m hm h1]
  simp

end eqs

section kernel
variable {R : Type} [Field R] [LinearOrder R] [IsStrictOrderedRing R] {h x : Nat → R} {m : Nat}

/-- The sum of the energies of the segments. -/
theorem energy_sum (hj : Joined h (fun _ => 0) m x) : ∀ k, k < m →
    ∑ i ∈ Finset.range (k + 1), h i * ((2 * x (3 * i + 1) + 3 * x (3 * i + 2) * h i) ^ 2 + 3 * (x (3 * i + 2) * h i) ^ 2) =
      (x (3 * k) + 2 * x (3 * k + 1) * h k + 3 * x (3 * k + 2) * h k ^ 2) * (2 * x (3 * k + 1) + 6 * x (3 * k + 2) * h k) -
        2 * x 0 * x 1 := by
  intro k
  induction k with
  | zero =>
    intro hk
    have := hj.value 0 hk
    simp only [zero_add, Finset.range_one, Finset.sum_singleton, Nat.mul_zero] at this ⊢
    linear_combination (-6 * x 2) * this
  | succ k ih =>
    intro hk
    rw [Finset.sum_range_succ, ih (by omega)]
    have v := hj.value (k + 1) hk
    have s := hj.slope k hk
    have b := hj.bend k hk
    rw [s]
    have b' : 2 * x (3 * k + 1) + 6 * x (3 * k + 2) * h k = 2 * x (3 * (k + 1) + 1) := by linear_combination 2 * b
    rw [b']
    linear_combination (-6 * x (3 * (k + 1) + 2)) * v

/-- If the energy is zero all coefficients are. -/
theorem energy_zero (hj : Joined h (fun _ => 0) m x) (hp : ∀ i < m, 0 < h i) (h1 : 1 ≤ m)
    (he : (x (3 * (m - 1)) + 2 * x (3 * (m - 1) + 1) * h (m - 1) + 3 * x (3 * (m - 1) + 2) * h (m - 1) ^ 2) *
      (2 * x (3 * (m - 1) + 1) + 6 * x (3 * (m - 1) + 2) * h (m - 1)) = 2 * x 0 * x 1) :
    ∀ j < 3 * m, x j = 0 := by
  have hs := energy_sum hj (m - 1) (by omega)
  rw [he, sub_self, show m - 1 + 1 = m by omega, Finset.sum_eq_zero_iff_of_nonneg] at hs
  · have hall : ∀ i < m, x (3 * i) = 0 ∧ x (3 * i + 1) = 0 ∧ x (3 * i + 2) = 0 := by
      intro i hi
      have hz := hs i (Finset.mem_range.2 hi)
      have hpi := hp i hi
      rcases mul_eq_zero.1 hz with hz | hz
      · exact absurd hz hpi.ne'
      have hz2 : x (3 * i + 2) * h i = 0 := by
        have : (x (3 * i + 2) * h i) ^ 2 = 0 := le_antisymm (by nlinarith [sq_nonneg (2 * x (3 * i + 1) + 3 * x (3 * i + 2) * h i)]) (sq_nonneg _)
        exact pow_eq_zero_iff (two_ne_zero) |>.1 this
      have c0 : x (3 * i + 2) = 0 := by
        rcases mul_eq_zero.1 hz2 with hc | hc
        · exact hc
        · exact absurd hc hpi.ne'
      have b0 : x (3 * i + 1) = 0 := by
        rw [c0] at hz
        have : x (3 * i + 1) ^ 2 = 0 := by linear_combination (1 / 4) * hz
        exact pow_eq_zero_iff (two_ne_zero) |>.1 this
      have v := hj.value i hi
      simp only [b0, c0, zero_mul, add_zero] at v
      rcases mul_eq_zero.1 v with hv | hv
      · exact ⟨hv, b0, c0⟩
      · exact absurd hv hpi.ne'
    intro j hj'
    obtain ⟨a, b, c⟩ := hall (j / 3) (by omega)
    have : j = 3 * (j / 3) ∨ j = 3 * (j / 3) + 1 ∨ j = 3 * (j / 3) + 2 := by omega
    rcases this with e | e | e <;> rw [e] <;> assumption
  · intro i hi
    have := hp i (Finset.mem_range.1 hi)
    positivity

/-- The second derivatives at the breaks, halved. -/
def bendAt (h x : Nat → R) (m i : Nat) : R :=
  if i < m then x (3 * i + 1) else x (3 * (m - 1) + 1) + 3 * x (3 * (m - 1) + 2) * h (m - 1)

theorem bendAt_step (hj : Joined h (fun _ => 0) m x) (i : Nat) (hi : i < m) :
    3 * x (3 * i + 2) * h i = bendAt h x m (i + 1) - bendAt h x m i := by
  unfold bendAt
  rw [if_pos hi]
  by_cases h2 : i + 1 < m
  · rw [if_pos h2]; linear_combination hj.bend i h2
  · rw [if_neg h2, show m - 1 = i by omega]; ring

theorem bendAt_three (hj : Joined h (fun _ => 0) m x) (hp : ∀ i < m, 0 < h i) (i : Nat) (hi : i + 1 < m) :
    h i * bendAt h x m i + 2 * (h i + h (i + 1)) * bendAt h x m (i + 1) + h (i + 1) * bendAt h x m (i + 2) = 0 := by
  have s0 := bendAt_step hj i (by omega)
  have s1 := bendAt_step hj (i + 1) hi
  have v0 := hj.value i (by omega)
  have v1 := hj.value (i + 1) hi
  have d := hj.slope i hi
  have p0 := hp i (by omega)
  have p1 := hp (i + 1) hi
  have a0 : x (3 * i) = - (x (3 * i + 1) * h i + x (3 * i + 2) * h i ^ 2) := by
    apply mul_right_cancel₀ p0.ne'; linear_combination v0
  have a1 : x (3 * (i + 1)) = - (x (3 * (i + 1) + 1) * h (i + 1) + x (3 * (i + 1) + 2) * h (i + 1) ^ 2) := by
    apply mul_right_cancel₀ p1.ne'; linear_combination v1
  have e0 : bendAt h x m i = x (3 * i + 1) := by unfold bendAt; rw [if_pos (by omega)]
  have e1 : bendAt h x m (i + 1) = x (3 * (i + 1) + 1) := by unfold bendAt; rw [if_pos hi]
  rw [show i + 1 + 1 = i + 2 from rfl] at s1
  rw [← e0] at a0 d
  rw [← e1] at a1
  rw [a0, a1] at d
  linear_combination 3 * d - 2 * h i * s0 - h (i + 1) * s1

theorem zero_of_bends (hj : Joined h (fun _ => 0) m x) (hp : ∀ i < m, 0 < h i)
    (hz : ∀ i ≤ m, bendAt h x m i = 0) : ∀ j < 3 * m, x j = 0 := by
  have hall : ∀ i < m, x (3 * i) = 0 ∧ x (3 * i + 1) = 0 ∧ x (3 * i + 2) = 0 := by
    intro i hi
    have hpi := hp i hi
    have s := bendAt_step hj i hi
    have b0 : x (3 * i + 1) = 0 := by have := hz i hi.le; unfold bendAt at this; rwa [if_pos hi] at this
    rw [hz i hi.le, hz (i + 1) hi, sub_zero] at s
    have c0 : x (3 * i + 2) = 0 := by
      rcases mul_eq_zero.1 s with hc | hc
      · exact (mul_eq_zero.1 hc).resolve_left three_ne_zero
      · exact absurd hc hpi.ne'
    have v := hj.value i hi
    simp only [b0, c0, zero_mul, add_zero] at v
    exact ⟨(mul_eq_zero.1 v).resolve_right hpi.ne', b0, c0⟩
  intro j hj'
  obtain ⟨a, b, c⟩ := hall (j / 3) (by omega)
  have : j = 3 * (j / 3) ∨ j = 3 * (j / 3) + 1 ∨ j = 3 * (j / 3) + 2 := by omega
  rcases this with e | e | e <;> rw [e] <;> assumption

/-- A multiple of a value is bounded by a smaller multiple of it: it is zero. -/
theorem dominated {k l b c : R} (hk : |l| < k) (hb : |c| ≤ |b|) (e : k * b + l * c = 0) : b = 0 := by
  by_contra hne
  have hb0 : 0 < |b| := abs_pos.2 hne
  have hk0 : 0 < k := (abs_nonneg l).trans_lt hk
  have e2 : k * b = -(l * c) := by linear_combination e
  have e3 : k * |b| = |l| * |c| := by rw [← abs_of_pos hk0, ← abs_mul, e2, abs_neg, abs_mul]
  nlinarith [abs_nonneg l]

/-- If the third derivatives of the first two and of the last two segments are the same, all coefficients are zero. -/
theorem notAKnot_zero (hj : Joined h (fun _ => 0) m x) (hp : ∀ i < m, 0 < h i) (h3 : 3 ≤ m)
    (e0 : x 2 = x 5) (e1 : x (3 * (m - 2) + 2) = x (3 * (m - 1) + 2)) : ∀ j < 3 * m, x j = 0 := by
  set B := bendAt h x m with hB
  have three : ∀ i, i + 1 < m → h i * B i + 2 * (h i + h (i + 1)) * B (i + 1) + h (i + 1) * B (i + 2) = 0 :=
    fun i hi => bendAt_three hj hp i hi
  have start : (h 0 + 2 * h 1) * B 1 + (h 1 - h 0) * B 2 = 0 := by
    have s0 := bendAt_step hj 0 (by omega)
    have s1 := bendAt_step hj 1 (by omega)
    have t := three 0 (by omega)
    have p0 := hp 0 (by omega)
    have p1 := hp 1 (by omega)
    rw [← hB] at s0 s1
    simp only [Nat.mul_zero, Nat.zero_add, Nat.mul_one, Nat.reduceAdd] at s0 s1 t
    rw [e0] at s0
    have r : h 1 * (B 1 - B 0) = h 0 * (B 2 - B 1) := by rw [← s0, ← s1]; ring
    have p01 : h 0 + h 1 ≠ 0 := (add_pos p0 p1).ne'
    apply mul_left_cancel₀ p01
    linear_combination h 1 * t + h 0 * r
  have last : (2 * h (m - 2) + h (m - 1)) * B (m - 1) + (h (m - 2) - h (m - 1)) * B (m - 2) = 0 := by
    have s0 := bendAt_step hj (m - 2) (by omega)
    have s1 := bendAt_step hj (m - 1) (by omega)
    have t := three (m - 2) (by omega)
    have p0 := hp (m - 2) (by omega)
    have p1 := hp (m - 1) (by omega)
    rw [← hB] at s0 s1
    rw [show m - 2 + 1 = m - 1 by omega] at s0 t
    rw [show m - 2 + 2 = m by omega] at t
    rw [show m - 1 + 1 = m by omega] at s1
    rw [e1] at s0
    have r : h (m - 1) * (B (m - 1) - B (m - 2)) = h (m - 2) * (B m - B (m - 1)) := by rw [← s0, ← s1]; ring
    have p01 : h (m - 2) + h (m - 1) ≠ 0 := (add_pos p0 p1).ne'
    apply mul_left_cancel₀ p01
    linear_combination h (m - 2) * t + h (m - 1) * r
  obtain ⟨j, hjm, hmax⟩ := Finset.exists_max_image (Finset.Ico 1 m) (fun i => |B i|) ⟨1, by simp; omega⟩
  have hj1 := (Finset.mem_Ico.1 hjm).1
  have hj2 := (Finset.mem_Ico.1 hjm).2
  have hle : ∀ i, 1 ≤ i → i < m → |B i| ≤ |B j| := fun i a b => hmax i (Finset.mem_Ico.2 ⟨a, b⟩)
  have hBj : B j = 0 := by
    by_cases hs : j = 1
    · subst hs
      have p0 := hp 0 (by omega)
      have p1 := hp 1 (by omega)
      refine dominated ?_ (hle 2 (by omega) (by omega)) start
      rw [abs_lt]; constructor <;> linarith
    by_cases hl : j = m - 1
    · subst hl
      have p0 := hp (m - 2) (by omega)
      have p1 := hp (m - 1) (by omega)
      refine dominated ?_ (hle (m - 2) (by omega) (by omega)) last
      rw [abs_lt]; constructor <;> linarith
    · obtain ⟨i, rfl⟩ : ∃ i, j = i + 1 := ⟨j - 1, by omega⟩
      have t := three i (by omega)
      have p0 := hp i (by omega)
      have p1 := hp (i + 1) (by omega)
      have a0 := hle i (by omega) (by omega)
      have a2 := hle (i + 2) (by omega) (by omega)
      by_contra hne
      have hb0 : 0 < |B (i + 1)| := abs_pos.2 hne
      have k : 2 * (h i + h (i + 1)) * B (i + 1) = -(h i * B i + h (i + 1) * B (i + 2)) := by linear_combination t
      have k2 : 2 * (h i + h (i + 1)) * |B (i + 1)| ≤ h i * |B i| + h (i + 1) * |B (i + 2)| := by
        have ha : |2 * (h i + h (i + 1)) * B (i + 1)| = 2 * (h i + h (i + 1)) * |B (i + 1)| := by
          rw [abs_mul, abs_of_pos (by linarith)]
        rw [← ha, k, abs_neg]
        refine (abs_add_le _ _).trans ?_
        rw [abs_mul, abs_mul, abs_of_pos p0, abs_of_pos p1]
      nlinarith
  have hin : ∀ i, 1 ≤ i → i < m → B i = 0 := by
    intro i a b
    have := hle i a b
    rw [hBj, abs_zero] at this
    exact abs_eq_zero.1 (le_antisymm this (abs_nonneg _))
  have hB0 : B 0 = 0 := by
    have t := three 0 (by omega)
    rw [show 0 + 1 = 1 from rfl, show 0 + 2 = 2 from rfl, hin 1 (by omega) (by omega), hin 2 (by omega) (by omega)] at t
    simp only [mul_zero, add_zero] at t
    exact (mul_eq_zero.1 t).resolve_left (hp 0 (by omega)).ne'
  have hBm : B m = 0 := by
    have t := three (m - 2) (by omega)
    rw [show m - 2 + 1 = m - 1 by omega, show m - 2 + 2 = m by omega, hin (m - 2) (by omega) (by omega),
      hin (m - 1) (by omega) (by omega)] at t
    simp only [mul_zero, zero_add] at t
    exact (mul_eq_zero.1 t).resolve_left (hp (m - 1) (by omega)).ne'
  refine zero_of_bends hj hp fun i hi => ?_
  rcases Nat.eq_zero_or_pos i with h0 | h0
  · rw [h0]; exact hB0
  · rcases Nat.lt_or_ge i m with h4 | h4
    · exact hin i h0 h4
    · rw [show i = m by omega]; exact hBm

/-- Two segments that are quadratic. -/
theorem quadratic_zero (hj : Joined h (fun _ => 0) 2 x) (hp : ∀ i < 2, 0 < h i) (e0 : x 2 = 0) (e1 : x 5 = 0) :
    ∀ j < 6, x j = 0 := by
  have s0 := bendAt_step hj 0 (by omega)
  have s1 := bendAt_step hj 1 (by omega)
  have t := bendAt_three hj hp 0 (by omega)
  have p0 := hp 0 (by omega)
  have p1 := hp 1 (by omega)
  simp only [Nat.mul_zero, Nat.zero_add, Nat.mul_one, Nat.reduceAdd] at s0 s1 t
  rw [e0] at s0
  rw [e1] at s1
  have b1 : bendAt h x 2 1 = bendAt h x 2 0 := by linear_combination -s0
  have b2 : bendAt h x 2 2 = bendAt h x 2 0 := by linear_combination -s1 - s0
  rw [b1, b2] at t
  have b0 : bendAt h x 2 0 = 0 := by
    have : (3 * (h 0 + h 1)) * bendAt h x 2 0 = 0 := by linear_combination t
    exact (mul_eq_zero.1 this).resolve_left (by positivity)
  refine zero_of_bends hj hp fun i hi => ?_
  match i, hi with
  | 0, _ => exact b0
  | 1, _ => rw [b1, b0]
  | 2, _ => rw [b2, b0]

end kernel

end Maliput.Piecewise
