import Verif.Lemmas.SplineFunction
import Verif.Lemmas.LagrangeInterpolation

set_option autoImplicit false

/-! Property theorems about cubic splines with continuous second derivatives and about interpolating polynomials. -/
namespace Maliput.Props

open Maliput Poly Piecewise Piecewise.Spec

/-- There is a solver that solves every system that has one solution: what the theorems below assume can be met. -/
theorem exact_solver_exists (R : Type) [Field R] : ∃ solve : Solver R, Exact solve := exists_exact

/-- C130. The cubic spline with given slopes at its ends: it is the one twice continuously differentiable function that
is a cubic polynomial between the times, goes through the samples and has these slopes. -/
theorem clamped_spline (solve : Solver ℝ) (hs : Exact solve) (ts ys : List ℝ) (d0 d1 : ℝ) (h1 : ts.length = ys.length)
    (h2 : 2 ≤ ts.length) (h3 : Apart ts) :
    ∃ p f f' f'', cubicClamped solve ts ys d0 d1 = .ok p ∧ Valid p ∧ p.breaks = ts ∧ Returns p f f' f'' ∧
      CubicSpline ts ys f f' f'' ∧ Clamped ts d0 d1 f' ∧
      ∀ g g' g'', CubicSpline ts ys g g' g'' → Clamped ts d0 d1 g' → ∀ t, ts.headD 0 ≤ t → t ≤ ts.getLastD 0 →
        g t = f t := by
  obtain ⟨m, hm⟩ : ∃ m, ts.length = m + 1 := ⟨ts.length - 1, by omega⟩
  have hy : ys.length = m + 1 := by omega
  have hm1 : 1 ≤ m := by omega
  have hns := clamped_nonsingular (ys := ys) h3 h2 d0 d1
  have hsol := hs _ _ hns
  rw [show ts.length - 1 = m by omega] at hns hsol
  set x := solve (3 * m) (interiorRows ts ys ++ clampedRows ts d0 d1) with hx
  have hsol' := hsol
  rw [solves_append, interior_iff ts ys m hm hm1] at hsol
  obtain ⟨f, f', f'', hr, hc, hsp⟩ := splinePP_spline hm hy hm1 h3 hsol.1
  refine ⟨⟨ts, splinePieces ys m x⟩, f, f', f'', ?_, splinePP_valid hm hy hm1 h3 x, rfl, hr, hsp,
    (clamped_coeffs hm hy hm1 h3 hc d0 d1).2 hsol.2, ?_⟩
  · unfold cubicClamped
    rw [(checkInput_iff ts ys 2).2 ⟨h1, h2, h3⟩]
    show make (splinePieces ys (ts.length - 1) _) ts = _
    rw [make_ok h3, show ts.length - 1 = m by omega]
  · intro g g' g'' hg hgc t k1 k2
    obtain ⟨y, hgy, hjy⟩ := exists_coeffs hm hy hm1 h3 hg
    have hys : Solves (interiorRows ts ys ++ clampedRows ts d0 d1) y :=
      (solves_append ..).2 ⟨(interior_iff ts ys m hm hm1 y).2 hjy, (clamped_coeffs hm hy hm1 h3 hgy d0 d1).1 hgc⟩
    exact (hasCoeffs_eq hm hy hm1 h3 hgy hc (solves_unique hns hys hsol') t k1 k2).1

/-- C130. The cubic spline with periodic ends and the one with the third derivative continuous next to the ends. -/
theorem ends_spline (solve : Solver ℝ) (hs : Exact solve) (ts ys : List ℝ) (periodic : Bool) (h1 : ts.length = ys.length)
    (h2 : 3 ≤ ts.length) (h3 : Apart ts) :
    ∃ p f f' f'', cubicEnds solve ts ys periodic = .ok p ∧ Valid p ∧ p.breaks = ts ∧ Returns p f f' f'' ∧
      CubicSpline ts ys f f' f'' ∧ (if periodic then Periodic ts f' f'' else NotAKnot ts f) ∧
      ∀ g g' g'', CubicSpline ts ys g g' g'' → (if periodic then Periodic ts g' g'' else NotAKnot ts g) →
        ∀ t, ts.headD 0 ≤ t → t ≤ ts.getLastD 0 → g t = f t := by
  obtain ⟨m, hm⟩ : ∃ m, ts.length = m + 1 := ⟨ts.length - 1, by omega⟩
  have hy : ys.length = m + 1 := by omega
  have hm1 : 1 ≤ m := by omega
  have hns := ends_nonsingular (ys := ys) h3 h2 periodic
  have hsol := hs _ _ hns
  rw [show ts.length - 1 = m by omega] at hns hsol
  set x := solve (3 * m) (interiorRows ts ys ++ endRows ts periodic) with hx
  have hsol' := hsol
  rw [solves_append, interior_iff ts ys m hm hm1] at hsol
  obtain ⟨f, f', f'', hr, hc, hsp⟩ := splinePP_spline hm hy hm1 h3 hsol.1
  have hends : ∀ {y : Nat → ℝ} {g g' g'' : ℝ → ℝ}, HasCoeffs ts ys m y g g' g'' →
      Joined (stepAt ts) (fun i => ys.getD (i + 1) 0 - ys.getD i 0) m y →
      ((if periodic then Periodic ts g' g'' else NotAKnot ts g) ↔ Solves (endRows ts periodic) y) := by
    intro y g g' g'' hgy hj
    cases periodic with
    | true => simpa using periodic_coeffs hm hy hm1 h3 hgy
    | false => simpa using notAKnot_coeffs hm hy hm1 h3 hgy hj (by omega)
  refine ⟨⟨ts, splinePieces ys m x⟩, f, f', f'', ?_, splinePP_valid hm hy hm1 h3 x, rfl, hr, hsp,
    (hends hc hsol.1).2 hsol.2, ?_⟩
  · unfold cubicEnds
    rw [(checkInput_iff ts ys 3).2 ⟨h1, h2, h3⟩]
    show make (splinePieces ys (ts.length - 1) _) ts = _
    rw [make_ok h3, show ts.length - 1 = m by omega]
  · intro g g' g'' hg hgc t k1 k2
    obtain ⟨y, hgy, hjy⟩ := exists_coeffs hm hy hm1 h3 hg
    have hys : Solves (interiorRows ts ys ++ endRows ts periodic) y :=
      (solves_append ..).2 ⟨(interior_iff ts ys m hm hm1 y).2 hjy, (hends hgy hjy).1 hgc⟩
    exact (hasCoeffs_eq hm hy hm1 h3 hgy hc (solves_unique hns hys hsol') t k1 k2).1

/-! A concrete case: the samples 0, 1, 0 at the times 0, 1, 2 with slopes of zero at the ends, on a solver that knows
the solution; the same samples without slopes give the parabola `2 t - t ^ 2`. -/
def knownSolution : Solver ℚ := fun _ _ j => [0, 3, -2, 0, -3, 2].getD j 0
def knownParabola : Solver ℚ := fun _ _ j => [2, -1, 0, 0, -1, 0].getD j 0

example : (∀ r ∈ interiorRows [0, 1, 2] [0, 1, (0 : ℚ)] ++ clampedRows [0, 1, 2] 0 0,
      (r.entries.map fun e => e.2 * knownSolution 6 [] e.1).sum = r.rhs) ∧
    (do (← cubicClamped knownSolution [0, 1, 2] [0, 1, 0] 0 0).evalDerivative (1 / 2) 0) = .ok (1 / 2) ∧
    (do (← cubicClamped knownSolution [0, 1, 2] [0, 1, 0] 0 0).evalDerivative 1 2) = .ok (-6) := by decide +kernel

example : (∀ r ∈ interiorRows [0, 1, 2] [0, 1, (0 : ℚ)] ++ endRows [0, 1, 2] false,
      (r.entries.map fun e => e.2 * knownParabola 6 [] e.1).sum = r.rhs) ∧
    (do (← cubicEnds knownParabola [0, 1, 2] [0, 1, 0] false).evalDerivative (3 / 2) 0) = .ok (3 / 4) := by decide +kernel

section rejected
variable {R : Type} [Field R] [LinearOrder R] [IsStrictOrderedRing R]

/-- C130. Samples that do not fit the times, too few samples and times that do not increase are rejected with an
exception. -/
theorem splines_reject (solve : Solver R) (ts ys : List R) :
    (∀ d0 d1, ¬(ts.length = ys.length ∧ 2 ≤ ts.length ∧ Apart ts) → cubicClamped solve ts ys d0 d1 = .error .throws) ∧
    ∀ periodic, ¬(ts.length = ys.length ∧ 3 ≤ ts.length ∧ Apart ts) →
      cubicEnds solve ts ys periodic = .error .throws := by
  refine ⟨fun d0 d1 h => ?_, fun p h => ?_⟩
  · unfold cubicClamped; rw [checkInput_error h]; rfl
  · unfold cubicEnds; rw [checkInput_error h]; rfl

/-- C130. The interpolating polynomial: the one polynomial of a degree below the number of samples that goes through all
of them, from the first time to the last one. -/
theorem lagrange_interpolates (solve : Solver R) (hs : Exact solve) (ts ys : List R) (h1 : ts.length = ys.length)
    (h2 : 2 ≤ ts.length) (h3 : ts.IsChain fun a b => epsilonTime < b - a) :
    ∃ p, lagrange solve ts ys = .ok p ∧ Valid p ∧ p.breaks = [ts.headD 0, ts.getLastD 0] ∧
      ∃ P : _root_.Polynomial R, P.degree < ts.length ∧
        (∀ (i : Nat) (t y : R), ts[i]? = some t → ys[i]? = some y → P.eval t = y) ∧
        (∀ t, ts.headD 0 ≤ t → t ≤ ts.getLastD 0 → p.evalDerivative t 0 = .ok (P.eval t)) ∧
        ∀ Q : _root_.Polynomial R, Q.degree < ts.length →
          (∀ (i : Nat) (t y : R), ts[i]? = some t → ys[i]? = some y → Q.eval t = y) → Q = P := by
  have hap : Apart ts := List.IsChain.imp (fun _ _ h => h.le) h3
  have hinc := hap.increasing
  obtain ⟨m, hm⟩ : ∃ m, ts.length = m + 1 := ⟨ts.length - 1, by omega⟩
  have hns := vandermonde_nonsingular ys hinc
  have hsol := (vandermonde_iff ts ys _).1 (hs _ _ hns)
  set x := solve ts.length (vandermondeRows ts ys) with hx
  have hhead : ts.headD 0 = ts.getD 0 0 := by cases ts <;> rfl
  have hlast : ts.getLastD 0 = ts.getD (ts.length - 1) 0 := by
    rw [List.getLastD_eq_getLast?, List.getLast?_eq_getElem?, List.getD_eq_getElem?_getD]
  have hgap : epsilonTime ≤ ts.getLastD 0 - ts.headD 0 := by
    have g0 := hap.gap 0 (by omega)
    rw [hlast, hhead]
    rw [← getD_eq (by omega), ← getD_eq (by omega)] at g0
    have : ts.getD (0 + 1) 0 ≤ ts.getD (ts.length - 1) 0 := by
      rcases Nat.lt_or_ge 1 (ts.length - 1) with h | h
      · exact (getD_lt_of hinc h (by omega)).le
      · rw [show ts.length - 1 = 0 + 1 by omega]
    linarith
  have hap2 : Apart [ts.headD 0, ts.getLastD 0] := by
    unfold Apart; rw [List.isChain_cons_cons]; exact ⟨hgap, by simp⟩
  let p : PP R := ⟨[ts.headD 0, ts.getLastD 0], [ofCoefficients tVar ((List.range ts.length).map x)]⟩
  have hv : Valid p := ⟨rfl, by simp [p], hap2.increasing, by simp [p, ofCoefficients]⟩
  let P : _root_.Polynomial R := (polyOf ts.length x).comp (Polynomial.X - Polynomial.C (ts.getD 0 0))
  have hP : ∀ t, P.eval t = (polyOf ts.length x).eval (t - ts.getD 0 0) := by intro t; simp [P, Polynomial.eval_comp]
  have hdeg : P.degree < ts.length := by
    have hnat : (polyOf ts.length x).natDegree < ts.length := by
      by_cases h0 : polyOf ts.length x = 0
      · rw [h0, Polynomial.natDegree_zero]; omega
      · exact (Polynomial.natDegree_lt_iff_degree_lt h0).2 (polyOf_degree _ _)
    have hnat2 : P.natDegree < ts.length := by
      refine lt_of_le_of_lt Polynomial.natDegree_comp_le ?_
      rw [Polynomial.natDegree_X_sub_C, Nat.mul_one]; exact hnat
    exact Polynomial.degree_le_natDegree.trans_lt (by exact_mod_cast hnat2)
  have hthrough : ∀ (i : Nat) (t y : R), ts[i]? = some t → ys[i]? = some y → P.eval t = y := by
    intro i t y ht hy
    obtain ⟨hi, rfl⟩ := List.getElem?_eq_some_iff.1 ht
    obtain ⟨hi', rfl⟩ := List.getElem?_eq_some_iff.1 hy
    rw [hP, ← getD_eq hi, ← getD_eq hi']
    exact hsol i hi
  refine ⟨p, ?_, hv, rfl, P, hdeg, hthrough, ?_, ?_⟩
  · unfold lagrange
    rw [if_neg (by omega), if_neg (by omega), if_neg (by rw [timesFurther_iff]; exact not_not.2 h3)]
    dsimp only
    rw [← hhead, ← hlast, make_ok hap2]
  · intro t k1 k2
    have k1' : first p ≤ t := k1
    have k2' : t ≤ last p := k2
    rw [hv.evalDerivative, saturated_of_mem k1' k2', hP, polyOf_eval]
    show Except.ok (evalPieces 0 t [_, _] [_]) = _
    rw [evalPieces, if_pos (.inl rfl), derivAt_ofCoefficients, powerSeries_eq, hhead]
    congr 1
    rw [List.length_map, List.length_range]
    refine Finset.sum_congr rfl fun i hi => ?_
    congr 1
    have := Finset.mem_range.1 hi
    simp [this]
  · intro Q hQ hQt
    refine Polynomial.eq_of_degrees_lt_of_eval_index_eq (s := Finset.range ts.length) (v := fun i => ts.getD i 0 - 0)
      (relative_injOn hinc 0) (by simpa using hQ) (by simpa using hdeg) fun i hi => ?_
    have hi := Finset.mem_range.1 hi
    have e : ts[i]? = some (ts.getD i 0 - 0) := by rw [sub_zero, getD_eq hi]; exact List.getElem?_eq_getElem _
    have e' : ys[i]? = some (ys[i]'(by omega)) := List.getElem?_eq_getElem _
    rw [hQt i _ _ e e', hthrough i _ _ e e']

/-- C130. Other arguments of the interpolation end the program. -/
theorem lagrange_aborts (solve : Solver R) (ts ys : List R)
    (h : ¬(ts.length = ys.length ∧ 2 ≤ ts.length ∧ ts.IsChain fun a b => epsilonTime < b - a)) :
    lagrange solve ts ys = .error .aborts := by
  unfold lagrange
  by_cases h2 : ts.length > 1
  · by_cases h1 : ys.length = ts.length
    · have h3 : ¬ timesFurther ts = true := fun h3 => h ⟨h1.symm, h2, (timesFurther_iff ts).1 h3⟩
      rw [if_neg (not_not.2 h2), if_neg (not_not.2 h1), if_pos h3]
    · rw [if_neg (not_not.2 h2), if_pos h1]
  · rw [if_pos h2]

end rejected

example : cubicClamped knownSolution [0] [0] 0 0 = .error .throws ∧
    cubicEnds knownSolution [0, 1] [0, 1] true = .error .throws ∧ lagrange knownSolution [0] [(0 : ℚ)] = .error .aborts ∧
    (do (← lagrange (fun _ _ j => [0, 2, -1].getD j 0) [0, 1, 2] [0, 1, (0 : ℚ)]).evalDerivative (3 / 2) 0) =
      .ok (3 / 4) := by decide +kernel

end Maliput.Props
