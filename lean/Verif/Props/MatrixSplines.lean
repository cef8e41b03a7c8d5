import Verif.Lemmas.MatrixSplines
import Mathlib.Algebra.Order.Ring.Rat
import Mathlib.Algebra.Field.Rat

set_option autoImplicit false
set_option linter.unusedSectionVars false

/-! C152: a spline through matrices is a spline for each entry. -/
namespace Maliput.Props

open Maliput Poly Piecewise
open Maliput.Piecewise.Spec (Shape Shaped entry column Lifts)

variable {R : Type} [Field R] [LinearOrder R] {rows cols : Nat}

/-- Three samples with two rows and one column. -/
def columnSamples : List (Mat ℚ) := [⟨2, 1, [0, 5]⟩, ⟨2, 1, [1, 3]⟩, ⟨2, 1, [4, 4]⟩]

/-- **C152.** Constants through matrices are constants through each entry, and are made if and only if those are. -/
theorem matrix_spline_zeroOrder {ys : List (Mat R)} (h : ∀ y ∈ ys, Shape rows cols y) (hr : 0 < rows) (hc : 0 < cols) (times : List R) :
    Lifts rows cols (MP.zeroOrderHold times ys) fun r c => (column ys r c).bind (zeroOrderHold times) :=
  zeroOrderHold_lifts h hr hc times

/-- **C152.** Lines through matrices are lines through each entry, and are made if and only if those are. -/
theorem matrix_spline_firstOrder {ys : List (Mat R)} (h : ∀ y ∈ ys, Shape rows cols y) (hr : 0 < rows) (hc : 0 < cols)
    (times : List R) :
    Lifts rows cols (MP.firstOrderHold times ys) fun r c => (column ys r c).bind (firstOrderHold times) :=
  firstOrderHold_lifts h hr hc times

/-- **C152.** Cubics through matrices with given derivatives are such cubics through each entry, and are made if and only if those
are. -/
theorem matrix_spline_hermite {ys yds : List (Mat R)} (h : ∀ y ∈ ys, Shape rows cols y) (h' : ∀ y ∈ yds, Shape rows cols y)
    (hr : 0 < rows) (hc : 0 < cols) (times : List R) :
    Lifts rows cols (MP.cubicHermite times ys yds) fun r c =>
      (column ys r c).bind fun y => (column yds r c).bind fun yd => cubicHermite times y yd :=
  cubicHermite_lifts h h' hr hc times

/-- **C152.** Cubics through matrices that keep the shape are such cubics through each entry, and are made if and only if those
are. -/
theorem matrix_spline_shapePreserving {ys : List (Mat R)} (h : ∀ y ∈ ys, Shape rows cols y) (hr : 0 < rows) (hc : 0 < cols)
    (times : List R) (zeroEnds : Bool) :
    Lifts rows cols (MP.cubicShapePreserving times ys zeroEnds) fun r c =>
      (column ys r c).bind fun y => cubicShapePreserving times y zeroEnds :=
  cubicShapePreserving_lifts h hr hc times zeroEnds

/-- **C152.** Cubics through matrices with continuous second derivatives and given slopes at the ends are such cubics through each entry,
whatever solves the equations, and are made if and only if those are. -/
theorem matrix_spline_clamped (solve : Solver R) {ys : List (Mat R)} {d0 d1 : Mat R} (h : ∀ y ∈ ys, Shape rows cols y)
    (h0 : Shape rows cols d0) (h1 : Shape rows cols d1) (hr : 0 < rows) (hc : 0 < cols) (times : List R) :
    Lifts rows cols (MP.cubicClamped solve times ys d0 d1) fun r c =>
      (column ys r c).bind fun y => (d0.get r c).bind fun a => (d1.get r c).bind fun b => cubicClamped solve times y a b :=
  cubicClamped_lifts solve h h0 h1 hr hc times

/-- **C152.** The same without slopes at the ends, periodic or not. -/
theorem matrix_spline_ends (solve : Solver R) {ys : List (Mat R)} (h : ∀ y ∈ ys, Shape rows cols y) (hr : 0 < rows) (hc : 0 < cols)
    (times : List R) (periodic : Bool) :
    Lifts rows cols (MP.cubicEnds solve times ys periodic) fun r c => (column ys r c).bind fun y => cubicEnds solve times y periodic :=
  cubicEnds_lifts solve h hr hc times periodic

/-- **C152.** The polynomial through matrices is the polynomial through each entry, whatever solves the equations, and is made if and
only if those are. -/
theorem matrix_spline_lagrange (solve : Solver R) {ys : List (Mat R)} (h : ∀ y ∈ ys, Shape rows cols y) (times : List R) :
    Lifts rows cols (MP.lagrange solve times ys) fun r c => (column ys r c).bind (lagrange solve times) :=
  lagrange_lifts solve h times

/-- Not a solver of equations, but its results show which equations it got. -/
def sumSolver : Solver ℚ := fun _ rows i => ((rows.map Row.rhs).getD i 0) + rows.length

example : (MP.cubicClamped sumSolver [0, 1, 3] columnSamples ⟨2, 1, [7, 8]⟩ ⟨2, 1, [9, 10]⟩).bind (fun q => entry q 1 0) =
    cubicClamped sumSolver [0, 1, 3] [5, 3, 4] 8 10 ∧
    (cubicClamped sumSolver [0, 1, 3] [5, 3, 4] 8 10).isOk = true := by decide +kernel
example : (MP.cubicEnds sumSolver [0, 1, 3] columnSamples true).isOk = true ∧
    (MP.lagrange sumSolver [0, 1, 3] columnSamples).isOk = true := by decide +kernel

example : ∀ y ∈ columnSamples, Shape 2 1 y := by unfold Shape; decide +kernel
example : (MP.firstOrderHold [0, 1, 3] columnSamples).bind (·.evalDerivative 2 0) = .ok ⟨2, 1, [5 / 2, 7 / 2]⟩ := by decide +kernel
example : (MP.cubicShapePreserving [0, 1, 3] columnSamples false).bind (·.evalDerivative 1 0) = .ok ⟨2, 1, [1, 3]⟩ := by decide +kernel
example : MP.zeroOrderHold [0, 1, 1] columnSamples = .error .throws := by decide +kernel

/-- **C152.** Samples of different sizes, or without entries, are refused. -/
theorem matrix_spline_sizes {times : List R} {ys yds : List (Mat R)} {zeroEnds periodic : Bool} {solve : Solver R} {d0 d1 : Mat R}
    {q : MP R}
    (h : MP.zeroOrderHold times ys = .ok q ∨ MP.firstOrderHold times ys = .ok q ∨ MP.cubicHermite times ys yds = .ok q ∨
      MP.cubicShapePreserving times ys zeroEnds = .ok q ∨ MP.cubicClamped solve times ys d0 d1 = .ok q ∨
      MP.cubicEnds solve times ys periodic = .ok q) :
    ∃ rows cols, 0 < rows ∧ 0 < cols ∧ ∀ y ∈ ys, y.rows = rows ∧ y.cols = cols := by
  have : ∃ n, checkMatrices times ys n = .ok () := by
    rcases h with h | h | h | h | h | h
    · simp only [MP.zeroOrderHold, bind_ok] at h; exact ⟨_, h.choose_spec.1⟩
    · simp only [MP.firstOrderHold, bind_ok] at h; exact ⟨_, h.choose_spec.1⟩
    · simp only [MP.cubicHermite, bind_ok] at h; exact ⟨_, h.choose_spec.1⟩
    · simp only [MP.cubicShapePreserving, bind_ok] at h; exact ⟨_, h.choose_spec.1⟩
    · simp only [MP.cubicClamped, bind_ok] at h; exact ⟨_, h.choose_spec.1⟩
    · simp only [MP.cubicEnds, bind_ok] at h; exact ⟨_, h.choose_spec.1⟩
  exact checkMatrices_shapes this.choose_spec

/-- **C152.** Derivatives of other sizes than the samples are refused. -/
theorem matrix_spline_derivative_sizes {times : List R} {ys yds : List (Mat R)} {q : MP R}
    (h : MP.cubicHermite times ys yds = .ok q) :
    yds.length = times.length ∧ ∀ y ∈ ys, ∀ yd ∈ yds, yd.rows = y.rows ∧ yd.cols = y.cols := by
  simp only [MP.cubicHermite, bind_ok, throwUnless_ok, decide_eq_true_eq] at h
  obtain ⟨_, hk, _, hl, _, hall, _⟩ := h
  obtain ⟨rows, cols, _, _, hs⟩ := checkMatrices_shapes hk
  refine ⟨hl.symm, fun y hy yd hyd => ?_⟩
  have := List.all_eq_true.1 hall yd hyd
  cases ys with
  | nil => cases hy
  | cons z ys =>
    have hz := hs z (by simp)
    have hy := hs y hy
    simp only [List.head?_cons, Option.any_some, Bool.and_eq_true, beq_iff_eq] at this
    omega

example : (MP.cubicHermite [0, 1, 3] columnSamples columnSamples).isOk = true := by decide +kernel
example : MP.cubicHermite [0, 1, 3] columnSamples [⟨2, 1, [0, 5]⟩, ⟨2, 1, [1, 3]⟩, ⟨1, 2, [4, 4]⟩] = .error .throws := by decide +kernel

/-- **C152.** Slopes at the ends of other sizes than the samples are refused. -/
theorem matrix_spline_end_sizes {solve : Solver R} {times : List R} {ys : List (Mat R)} {d0 d1 : Mat R} {q : MP R}
    (h : MP.cubicClamped solve times ys d0 d1 = .ok q) :
    ∀ y ∈ ys, (d0.rows = y.rows ∧ d0.cols = y.cols) ∧ d1.rows = y.rows ∧ d1.cols = y.cols := by
  simp only [MP.cubicClamped, bind_ok, throwUnless_ok, decide_eq_true_eq] at h
  obtain ⟨_, hk, y0, hy0, _, ⟨h1, h2⟩, _, ⟨h3, h4⟩, _⟩ := h
  obtain ⟨rows, cols, _, _, hs⟩ := checkMatrices_shapes hk
  intro y hy
  have e := hs y hy
  cases ys with
  | nil => cases hy
  | cons z ys =>
    obtain rfl : z = y0 := Except.ok.inj hy0
    have := hs z (by simp)
    omega

/-- **C152.** The polynomial through samples of different sizes is refused. -/
theorem matrix_spline_lagrange_sizes {solve : Solver R} {times : List R} {ys : List (Mat R)} {q : MP R}
    (h : MP.lagrange solve times ys = .ok q) : ys.length = times.length ∧ ∃ rows cols, ∀ y ∈ ys, y.rows = rows ∧ y.cols = cols := by
  unfold MP.lagrange at h
  split at h
  · cases h
  split at h
  · cases h
  rename_i hl
  simp only [bind_ok] at h
  obtain ⟨y, _, h⟩ := h
  split at h
  · cases h
  rename_i hall
  simp only [not_not] at hall
  refine ⟨by simpa using hl, y.rows, y.cols, fun z hz => ?_⟩
  simpa using List.all_eq_true.1 hall.2 z hz

example : MP.lagrange sumSolver [0, 1] [⟨2, 1, [0, 5]⟩, ⟨1, 2, [0, 5]⟩] = .error .aborts := by decide +kernel

/-- **C152.** When samples are given as the columns of a matrix, the samples of an entry are the row of the matrix. -/
theorem matrix_spline_columns {m : Mat R} (h : Shape rows cols m) :
    ∃ ys, colsToVector m = .ok ys ∧ ys.length = cols ∧ (∀ y ∈ ys, Shape rows 1 y) ∧
      ∀ r, r < rows → column ys r 0 = (List.range cols).mapM fun i => m.get r i :=
  colsToVector_row h

example : colsToVector (⟨2, 3, [0, 5, 1, 3, 4, 4]⟩ : Mat ℚ) = .ok columnSamples := by decide +kernel

end Maliput.Props
