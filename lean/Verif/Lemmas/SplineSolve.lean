import Verif.Lemmas.SplineSystem
import Verif.Lemmas.PiecewiseHermite
import Mathlib.LinearAlgebra.FiniteDimensional.Lemmas
import Mathlib.LinearAlgebra.Lagrange

set_option autoImplicit false
set_option linter.unusedSectionVars false

/-! The systems of cubic splines and of interpolating polynomials have one solution. -/
namespace Maliput.Piecewise

open Maliput Poly Spec

section exact
variable {R : Type} [Field R]

/-- The left hand side of a row depends only on the unknowns in its columns. -/
theorem left_congr {r : Row R} {x y : Nat → R} {n : Nat} (hc : ∀ e ∈ r.entries, e.1 < n) (h : ∀ i < n, x i = y i) :
    Row.left r x = Row.left r y := by
  unfold Row.left
  congr 1
  refine List.map_congr_left fun e he => ?_
  rw [h e.1 (hc e he)]

theorem left_sub (r : Row R) (x y : Nat → R) : Row.left r (fun i => x i - y i) = Row.left r x - Row.left r y := by
  unfold Row.left
  induction r.entries with
  | nil => simp
  | cons e es ih => simp only [List.map_cons, List.sum_cons, ih]; ring

/-- Two solutions of a system whose matrix has no kernel are the same. -/
theorem solves_unique {n : Nat} {rows : List (Row R)} (h : Nonsingular n rows) {x y : Nat → R} (hx : Solves rows x)
    (hy : Solves rows y) : ∀ i < n, x i = y i := by
  intro i hi
  have := h.kernel (fun i => x i - y i) (fun r hr => by rw [left_sub, hx r hr, hy r hr, sub_self]) i hi
  exact sub_eq_zero.1 this

/-- The unknowns below `n` of a vector. -/
def extend (n : Nat) (x : Fin n → R) : Nat → R := fun i => if h : i < n then x ⟨i, h⟩ else 0

theorem left_extend_add (n : Nat) (r : Row R) (x y : Fin n → R) :
    Row.left r (extend n (x + y)) = Row.left r (extend n x) + Row.left r (extend n y) := by
  unfold Row.left
  induction r.entries with
  | nil => simp
  | cons e es ih =>
    simp only [List.map_cons, List.sum_cons, ih]
    unfold extend
    split
    · simp only [Pi.add_apply]; ring
    · ring

theorem left_extend_smul (n : Nat) (r : Row R) (c : R) (x : Fin n → R) :
    Row.left r (extend n (c • x)) = c * Row.left r (extend n x) := by
  unfold Row.left
  induction r.entries with
  | nil => simp
  | cons e es ih =>
    simp only [List.map_cons, List.sum_cons, ih]
    unfold extend
    split
    · simp only [Pi.smul_apply, smul_eq_mul]; ring
    · ring

/-- A square system whose matrix has no kernel has a solution. -/
theorem exists_solution {n : Nat} {rows : List (Row R)} (h : Nonsingular n rows) : ∃ x, Solves rows x := by
  obtain ⟨hs, hc, hk⟩ := h
  let f : (Fin n → R) →ₗ[R] (Fin n → R) :=
    { toFun := fun x j => Row.left (rows[j.1]'(by rw [hs]; exact j.2)) (extend n x)
      map_add' := fun x y => by funext j; exact left_extend_add n _ x y
      map_smul' := fun c x => by funext j; exact left_extend_smul n _ c x }
  have hinj : Function.Injective f := by
    rw [injective_iff_map_eq_zero]
    intro x hx
    funext i
    have := hk (extend n x) (fun r hr => by
      obtain ⟨j, hj, rfl⟩ := List.mem_iff_getElem.1 hr
      exact congrFun hx ⟨j, by omega⟩) i.1 i.2
    unfold extend at this
    rw [dif_pos i.2] at this
    exact this
  obtain ⟨x, hx⟩ := LinearMap.injective_iff_surjective.1 hinj fun j => (rows[j.1]'(by rw [hs]; exact j.2)).rhs
  refine ⟨extend n x, fun r hr => ?_⟩
  obtain ⟨j, hj, rfl⟩ := List.mem_iff_getElem.1 hr
  exact congrFun hx ⟨j, by omega⟩

theorem exists_exact : ∃ solve : Solver R, Exact solve := by
  classical
  exact ⟨fun n rows => if h : Nonsingular n rows then (exists_solution h).choose else fun _ => 0,
    fun n rows h => by simp only [dif_pos h]; exact (exists_solution h).choose_spec⟩

end exact

section sizes
variable {R : Type} [Field R]

theorem interiorRows_length (ts ys : List R) (m : Nat) (hm : ts.length = m + 2) :
    (interiorRows ts ys).length = 3 * m + 1 := by
  unfold interiorRows
  rw [List.length_flatMap]
  rw [show ts.length - 1 = m + 1 by omega, List.range_succ, List.map_append, List.sum_append,
    show ts.length - 2 = m by omega]
  have : (List.range m).map (fun i => ((let dt := stepAt ts i
      (⟨[(3 * i + 0, dt), (3 * i + 1, dt * dt), (3 * i + 2, dt * dt * dt)], ys.getD (i + 1) 0 - ys.getD i 0⟩ ::
      if i ≠ m then
        [⟨[(3 * i + 0, 1), (3 * i + 1, 2 * dt), (3 * i + 2, 3 * dt * dt), (3 * (i + 1), -1)], 0⟩,
          ⟨[(3 * i + 1, 2), (3 * i + 2, 6 * dt), (3 * (i + 1) + 1, -2)], 0⟩]
      else []) : List (Row R)).length)) = List.replicate m 3 := by
    rw [List.eq_replicate_iff]
    refine ⟨by simp, fun b hb => ?_⟩
    obtain ⟨i, hi, rfl⟩ := List.mem_map.1 hb
    have := List.mem_range.1 hi
    dsimp only
    rw [if_pos (by omega : i ≠ m)]; rfl
  rw [this]
  simp; omega

theorem interiorRows_columns (ts ys : List R) (m : Nat) (hm : ts.length = m + 2) :
    ∀ r ∈ interiorRows ts ys, ∀ e ∈ r.entries, e.1 < 3 * (m + 1) := by
  unfold interiorRows
  intro r hr e he
  obtain ⟨i, hi, hr⟩ := List.mem_flatMap.1 hr
  have hi := List.mem_range.1 hi
  rcases List.mem_cons.1 hr with rfl | hr
  · simp only [List.mem_cons, List.not_mem_nil, or_false] at he
    rcases he with rfl | rfl | rfl <;> simp only <;> omega
  · split at hr
    · simp only [List.mem_cons, List.not_mem_nil, or_false] at hr
      rcases hr with rfl | rfl <;> simp only [List.mem_cons, List.not_mem_nil, or_false] at he
      · rcases he with rfl | rfl | rfl | rfl <;> simp only <;> omega
      · rcases he with rfl | rfl | rfl <;> simp only <;> omega
    · cases hr

end sizes

section systems
variable {R : Type} [Field R] [LinearOrder R] [IsStrictOrderedRing R]

theorem getD_eq {ts : List R} {i : Nat} (h : i < ts.length) : ts.getD i 0 = ts[i] := by simp [h]

theorem stepAt_pos {ts : List R} (h : Apart ts) (m : Nat) (hm : ts.length = m + 1) : ∀ i < m, 0 < stepAt ts i := by
  intro i hi
  have := gap_ne h i (by omega)
  unfold stepAt
  rw [getD_eq (by omega), getD_eq (by omega)]
  exact this

theorem clamped_iff (ts : List R) (d0 d1 : R) (m : Nat) (hm : ts.length = m + 2) (x : Nat → R) :
    Solves (clampedRows ts d0 d1) x ↔ x 0 = d0 ∧
      x (3 * m) + 2 * x (3 * m + 1) * stepAt ts m + 3 * x (3 * m + 2) * stepAt ts m ^ 2 = d1 := by
  unfold clampedRows Solves
  dsimp only
  rw [show ts.length - 2 = m by omega]
  simp only [List.mem_cons, List.not_mem_nil, or_false, forall_eq_or_imp, forall_eq, Row.left, List.map, List.sum_cons,
    List.sum_nil, one_mul, add_zero]
  refine and_congr_right fun _ => ?_
  rw [show x (3 * m) + (2 * stepAt ts m * x (3 * m + 1) + 3 * stepAt ts m * stepAt ts m * x (3 * m + 2)) =
    x (3 * m) + 2 * x (3 * m + 1) * stepAt ts m + 3 * x (3 * m + 2) * stepAt ts m ^ 2 by ring]

theorem periodic_iff (ts : List R) (m : Nat) (hm : ts.length = m + 2) (x : Nat → R) :
    Solves (endRows ts true) x ↔
      x (3 * m) + 2 * x (3 * m + 1) * stepAt ts m + 3 * x (3 * m + 2) * stepAt ts m ^ 2 = x 0 ∧
      x (3 * m + 1) + 3 * x (3 * m + 2) * stepAt ts m = x 1 := by
  unfold endRows Solves
  dsimp only
  rw [show ts.length - 2 = m by omega]
  simp only [if_true, List.mem_cons, List.not_mem_nil, or_false, forall_eq_or_imp, forall_eq, Row.left, List.map,
    List.sum_cons, List.sum_nil, one_mul, add_zero]
  refine and_congr ⟨fun h => by linear_combination h, fun h => by linear_combination h⟩
    ⟨fun h => ?_, fun h => by linear_combination 2 * h⟩
  apply mul_left_cancel₀ (two_ne_zero (α := R))
  linear_combination h

theorem notAKnot_iff (ts : List R) (m : Nat) (hm : ts.length = m + 2) (h : 2 ≤ m) (x : Nat → R) :
    Solves (endRows ts false) x ↔ x 2 = x 5 ∧ x (3 * (m - 1) + 2) = x (3 * m + 2) := by
  unfold endRows Solves
  dsimp only
  rw [show ts.length - 2 = m by omega, show ts.length - 3 = m - 1 by omega]
  simp only [Bool.false_eq_true, if_false, if_pos (show ts.length > 3 by omega), List.mem_cons, List.not_mem_nil, or_false,
    forall_eq_or_imp, forall_eq, Row.left, List.map, List.sum_cons, List.sum_nil, one_mul, add_zero, Nat.reduceAdd]
  exact and_congr ⟨fun h => by linear_combination h, fun h => by linear_combination h⟩
    ⟨fun h => by linear_combination h, fun h => by linear_combination h⟩

theorem quadratic_iff (ts : List R) (hm : ts.length = 3) (x : Nat → R) :
    Solves (endRows ts false) x ↔ x 2 = 0 ∧ x 5 = 0 := by
  unfold endRows Solves
  simp only [Bool.false_eq_true, if_false, if_neg (show ¬ ts.length > 3 by omega), List.mem_cons, List.not_mem_nil, or_false,
    forall_eq_or_imp, forall_eq, Row.left, List.map, List.sum_cons, List.sum_nil, one_mul, add_zero, Nat.reduceAdd]

theorem zeroRhs_append (a b : List (Row R)) : zeroRhs (a ++ b) = zeroRhs a ++ zeroRhs b := by simp [zeroRhs]

theorem clamped_nonsingular {ts ys : List R} (ha : Apart ts) (h2 : 2 ≤ ts.length) (d0 d1 : R) :
    Nonsingular (3 * (ts.length - 1)) (interiorRows ts ys ++ clampedRows ts d0 d1) := by
  obtain ⟨m, hm⟩ : ∃ m, ts.length = m + 2 := ⟨ts.length - 2, by omega⟩
  rw [show ts.length - 1 = m + 1 by omega]
  refine ⟨by rw [List.length_append, interiorRows_length ts ys m hm]; simp [clampedRows]; omega, ?_, ?_⟩
  · intro r hr e he
    rcases List.mem_append.1 hr with hr | hr
    · exact interiorRows_columns ts ys m hm r hr e he
    · unfold clampedRows at hr
      dsimp only at hr
      rw [show ts.length - 2 = m by omega] at hr
      simp only [List.mem_cons, List.not_mem_nil, or_false] at hr
      rcases hr with rfl | rfl <;> simp only [List.mem_cons, List.not_mem_nil, or_false] at he
      · rw [he]; simp only; omega
      · rcases he with rfl | rfl | rfl <;> simp only <;> omega
  · intro x hx
    rw [solves_zero, zeroRhs_append, solves_append, interior_zero_iff ts ys (m + 1) (by omega) (by omega)] at hx
    obtain ⟨hj, hx⟩ := hx
    have e : zeroRhs (clampedRows ts d0 d1) = clampedRows ts 0 0 := by simp [zeroRhs, clampedRows]
    rw [e, clamped_iff ts 0 0 m hm] at hx
    refine energy_zero hj (stepAt_pos ha _ (by omega)) (by omega) ?_
    rw [show m + 1 - 1 = m by omega, hx.1, hx.2]; ring

theorem ends_nonsingular {ts ys : List R} (ha : Apart ts) (h3 : 3 ≤ ts.length) (periodic : Bool) :
    Nonsingular (3 * (ts.length - 1)) (interiorRows ts ys ++ endRows ts periodic) := by
  obtain ⟨m, hm⟩ : ∃ m, ts.length = m + 2 := ⟨ts.length - 2, by omega⟩
  rw [show ts.length - 1 = m + 1 by omega]
  have hl : (endRows ts periodic).length = 2 := by
    unfold endRows; dsimp only; split
    · rfl
    · split <;> rfl
  refine ⟨by rw [List.length_append, interiorRows_length ts ys m hm, hl]; omega, ?_, ?_⟩
  · intro r hr e he
    rcases List.mem_append.1 hr with hr | hr
    · exact interiorRows_columns ts ys m hm r hr e he
    · unfold endRows at hr
      dsimp only at hr
      rw [show ts.length - 2 = m by omega, show ts.length - 3 = m - 1 by omega] at hr
      split at hr
      · simp only [List.mem_cons, List.not_mem_nil, or_false] at hr
        rcases hr with rfl | rfl <;> simp only [List.mem_cons, List.not_mem_nil, or_false] at he
        · rcases he with rfl | rfl | rfl | rfl <;> simp only <;> omega
        · rcases he with rfl | rfl | rfl <;> simp only <;> omega
      · split at hr <;> simp only [List.mem_cons, List.not_mem_nil, or_false] at hr
        · rcases hr with rfl | rfl <;> simp only [List.mem_cons, List.not_mem_nil, or_false] at he
          · rcases he with rfl | rfl <;> simp only <;> omega
          · rcases he with rfl | rfl <;> simp only <;> omega
        · rcases hr with rfl | rfl <;> simp only [List.mem_cons, List.not_mem_nil, or_false] at he <;>
            rw [he] <;> simp only <;> omega
  · intro x hx
    rw [solves_zero, zeroRhs_append, solves_append, interior_zero_iff ts ys (m + 1) (by omega) (by omega)] at hx
    obtain ⟨hj, hx⟩ := hx
    have e : zeroRhs (endRows ts periodic) = endRows ts periodic := by
      unfold zeroRhs endRows; dsimp only; split
      · simp
      · split <;> simp
    rw [e] at hx
    have hp := stepAt_pos ha (m + 1) (by omega)
    cases periodic with
    | true =>
      rw [periodic_iff ts m hm] at hx
      refine energy_zero hj hp (by omega) ?_
      rw [show m + 1 - 1 = m by omega, hx.1]
      linear_combination 2 * x 0 * hx.2
    | false =>
      by_cases h4 : ts.length = 3
      · rw [quadratic_iff ts h4] at hx
        obtain rfl : m = 1 := by omega
        exact quadratic_zero hj hp hx.1 hx.2
      · rw [notAKnot_iff ts m hm (by omega)] at hx
        refine notAKnot_zero hj hp (by omega) hx.1 ?_
        rw [show m + 1 - 2 = m - 1 by omega, show m + 1 - 1 = m by omega]
        exact hx.2

end systems

end Maliput.Piecewise
