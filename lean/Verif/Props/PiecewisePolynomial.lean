import Verif.Lemmas.PiecewiseHermite

set_option autoImplicit false
set_option linter.unusedSectionVars false

/-! C96-C98: the evaluation of piecewise polynomials, and those that are made of samples. -/
namespace Maliput.Props

open Maliput Poly Piecewise Piecewise.Spec

section general
variable {R : Type} [Field R] [LinearOrder R]

/-! C96: evaluation. -/

/-- Two polynomials: `1 + t` from 0 to 1 and `5 + t ^ 2`, in the time since 1, from 1 to 3. -/
def twoPieces : PP ℚ := ⟨[0, 1, 3], [ofCoefficients 48 [1, 1], ofCoefficients 48 [5, 0, 1]]⟩

theorem twoPieces_valid : Valid twoPieces :=
  ⟨rfl, by decide, by decide +kernel, by decide +kernel⟩

/-- C96. `get_segment_index` finds, for every time, the one segment that has the time clipped to the breaks. -/
theorem piecewise_segment (p : PP R) (hv : Valid p) (t : R) :
    ∃ i, p.segmentIndex t = .ok i ∧ InSegment p.breaks (saturated p t) i ∧
      ∀ j, InSegment p.breaks (saturated p t) j → j = i := by
  obtain ⟨i, h1, h2⟩ := hv.segmentIndex t
  refine ⟨i, h1, h2, fun j h3 => ?_⟩
  obtain ⟨a, b, ha, hb, k1, k2⟩ := h2
  obtain ⟨c, d, hc, hd, k3, k4⟩ := h3
  obtain ⟨ha1, ha2⟩ := List.getElem?_eq_some_iff.1 ha
  obtain ⟨hb1, hb2⟩ := List.getElem?_eq_some_iff.1 hb
  obtain ⟨hc1, hc2⟩ := List.getElem?_eq_some_iff.1 hc
  obtain ⟨hd1, hd2⟩ := List.getElem?_eq_some_iff.1 hd
  have mono : ∀ x y (hx : x < p.breaks.length) (hy : y < p.breaks.length), x ≤ y → p.breaks[x] ≤ p.breaks[y] := by
    intro x y hx hy hxy
    rcases hxy.lt_or_eq with h | h
    · exact (List.pairwise_iff_getElem.1 hv.increasing _ _ _ _ h).le
    · subst h; exact le_refl _
  rcases lt_trichotomy i j with h | h | h
  · have := mono (i + 1) j hb1 hc1 h
    rw [hb2, hc2] at this
    rcases k2 with k2 | ⟨-, k2⟩
    · exact absurd (k2.trans_le this) (not_lt.2 k3)
    · omega
  · exact h.symm
  · have := mono (j + 1) i hd1 ha1 h
    rw [hd2, ha2] at this
    rcases k4 with k4 | ⟨-, k4⟩
    · exact absurd (k4.trans_le this) (not_lt.2 k1)
    · omega

example : [(-1 : ℚ), 0, 1/2, 1, 2, 3, 7].map twoPieces.segmentIndex = [.ok 0, .ok 0, .ok 0, .ok 1, .ok 1, .ok 1, .ok 1] := by
  decide +kernel

/-- C96. The value, and a derivative of any order, is that of the polynomial of the segment at the time since its
start; a time outside of the breaks counts as the closest break. -/
theorem piecewise_value (p : PP R) (hv : Valid p) (t : R) (n i : Nat) (a : R) (q : Poly.Polynomial R)
    (hi : InSegment p.breaks (saturated p t) i) (ha : p.breaks[i]? = some a) (hq : p.polynomials[i]? = some q) :
    p.evalDerivative t n = evaluateUnivariate q (saturated p t - a) n := by
  obtain ⟨ha1, ha2⟩ := List.getElem?_eq_some_iff.1 ha
  obtain ⟨hq1, hq2⟩ := List.getElem?_eq_some_iff.1 hq
  rw [hv.evalDerivative, evalPieces_seg n _ i _ _ hv.lengths hv.increasing hq1 ha1 hi, ha2, hq2,
    evaluateUnivariate_ok _ _ _ (hv.univariate q (hq2 ▸ List.getElem_mem hq1))]

example : [(-1 : ℚ), 0, 1/2, 1, 2, 3, 7].map (twoPieces.evalDerivative · 0) =
    [.ok 1, .ok 1, .ok (3/2), .ok 5, .ok 6, .ok 9, .ok 9] := by decide +kernel

/-- C96. Every evaluation returns a value. -/
theorem piecewise_total (p : PP R) (hv : Valid p) (t : R) (n : Nat) : ∃ v, p.evalDerivative t n = .ok v :=
  ⟨_, hv.evalDerivative t n⟩

example : twoPieces.evalDerivative 2 1 = .ok 2 := by decide +kernel

/-- C96. Between the first and the last break `scalarValue` is the value. -/
theorem piecewise_scalar_partial (p : PP R) (hv : Valid p) (t : R) (h1 : first p ≤ t) (h2 : t ≤ last p) :
    p.scalarValue t = p.evalDerivative t 0 := by
  rw [hv.scalarValue t h1 h2, hv.evalDerivative, saturated]
  rw [if_neg (not_lt.2 h1), if_neg (not_lt.2 h2)]

example : twoPieces.scalarValue 2 = .ok 6 := by decide +kernel

/-- C96: outside of the breaks `scalarValue` continues the polynomial at the end, and `value` does not. -/
theorem piecewise_scalar_extrapolates :
    twoPieces.scalarValue 4 = .ok 14 ∧ twoPieces.evalDerivative 4 0 = .ok 9 ∧
      twoPieces.scalarValue (-1) = .ok 0 ∧ twoPieces.evalDerivative (-1) 0 = .ok 1 := by decide +kernel

/-- C96: without segments there is no value. -/
theorem piecewise_empty (t : R) (n : Nat) : (empty : PP R).evalDerivative t n = .error .throws := rfl

end general

/-- C96. At a time that is not a break, the derivative of the order n + 1 is the derivative of the function that
the order n gives. -/
theorem piecewise_derivative (p : PP ℝ) (hv : Valid p) (n : Nat) : ∃ f f' : ℝ → ℝ,
    (∀ t, p.evalDerivative t n = .ok (f t)) ∧ (∀ t, p.evalDerivative t (n + 1) = .ok (f' t)) ∧
      ∀ t, first p < t → t < last p → t ∉ p.breaks → HasDerivAt f (f' t) t := by
  refine ⟨_, _, fun t => hv.evalDerivative t n, fun t => hv.evalDerivative t (n + 1), fun t h1 h2 h3 => ?_⟩
  have hm : ∀ m, MatchAt m t p.breaks p.polynomials := fun m => matchAt_of hv.lengths fun i hi h =>
    absurd (h ▸ List.getElem_mem _) h3
  rw [saturated_of_mem h1.le h2.le]
  refine (evalPieces_hasDerivAt n t p.breaks p.polynomials hv.lengths hv.increasing (hm n) (hm (n + 1))).congr_of_eventuallyEq ?_
  filter_upwards [saturated_eventually p h1 h2] with s hs
  rw [hs]

/-- A piecewise polynomial over the real numbers. -/
def realPieces : PP ℝ := ⟨[0, 1], [ofCoefficients 48 [1, 1]]⟩

example : Valid realPieces ∧ first realPieces < 1/2 ∧ 1/2 < last realPieces ∧ (1/2 : ℝ) ∉ realPieces.breaks := by
  refine ⟨⟨rfl, by simp [realPieces], by simp [realPieces], by simp [realPieces, ofCoefficients]⟩, ?_, ?_, ?_⟩ <;>
    norm_num [first, last, realPieces]

/-! C97: interpolation. -/

section interpolation
variable {R : Type} [Field R] [LinearOrder R] [IsStrictOrderedRing R]

/-- C97. `ZeroOrderHold` holds each sample until the next time, the one before the last at the end as well. -/
theorem zero_order_hold (ts ys : List R) (h1 : ts.length = ys.length) (h2 : 2 ≤ ts.length) (h3 : Apart ts) :
    ∃ p, zeroOrderHold ts ys = .ok p ∧ Valid p ∧ p.breaks = ts ∧
      ∀ t i y, InSegment ts t i → ys[i]? = some y → p.evalDerivative t 0 = .ok y := by
  have hv := valid_consecutive (fun a _ => ofCoefficients tVar [a]) (fun _ _ => rfl) (l := ys) h3 h2 h1.symm
  refine ⟨⟨ts, consecutive (fun a _ => ofCoefficients tVar [a]) ys⟩, ?_, hv, rfl, ?_⟩
  · unfold zeroOrderHold
    rw [(checkInput_iff ts ys 2).2 ⟨h1, h2, h3⟩, zeroOrderPieces_eq]
    exact make_ok h3 _
  · intro t i y hi hy
    obtain ⟨a, b, ha, hb, k1, k2⟩ := hi
    obtain ⟨ha1, ha2⟩ := List.getElem?_eq_some_iff.1 ha
    obtain ⟨hb1, hb2⟩ := List.getElem?_eq_some_iff.1 hb
    obtain ⟨hy1, hy2⟩ := List.getElem?_eq_some_iff.1 hy
    obtain ⟨m1, m2⟩ := hv.segment_mem (t := t) (i := i) hb1 (by dsimp only; rw [ha2]; exact k1)
      (by dsimp only; rw [hb2]; exact k2.elim (·.le) (·.1.le))
    rw [hv.evalDerivative, saturated_of_mem m1 m2, evalPieces_seg 0 t i _ _ hv.lengths hv.increasing
      (by simp [consecutive_length]; omega) ha1 ⟨a, b, ha, hb, k1, k2⟩]
    dsimp only
    rw [consecutive_getElem _ ys i (by omega), derivAt_zero_const, hy2]

/-- A step function. -/
def stairs : Except Err (PP ℚ) := zeroOrderHold [0, 1, 3] [5, 7, 2]

example : ([0, 1, 3] : List ℚ).length = ([5, 7, 2] : List ℚ).length ∧ Apart ([0, 1, 3] : List ℚ) :=
  ⟨rfl, by unfold Apart; decide +kernel⟩

/-- C97: the last sample of `ZeroOrderHold` is never the value. -/
theorem zero_order_hold_end : [(0 : ℚ), 1/2, 1, 2, 3, 9].map (fun t => stairs.bind (·.evalDerivative t 0)) =
    [.ok 5, .ok 5, .ok 7, .ok 7, .ok 7, .ok 7] := by decide +kernel

/-- C97. `FirstOrderHold` is linear between consecutive samples. -/
theorem first_order_hold (ts ys : List R) (h1 : ts.length = ys.length) (h2 : 2 ≤ ts.length) (h3 : Apart ts) :
    ∃ p, firstOrderHold ts ys = .ok p ∧ Valid p ∧ p.breaks = ts ∧
      ∀ t i a b y z, ts[i]? = some a → ts[i + 1]? = some b → ys[i]? = some y → ys[i + 1]? = some z → a ≤ t → t ≤ b →
        p.evalDerivative t 0 = .ok (y + (z - y) * (t - a) / (b - a)) := by
  have hl : (ts.zip ys).length = ts.length := by simp; omega
  have hv := valid_consecutive linearQ (fun _ _ => rfl) (l := ts.zip ys) h3 h2 hl
  refine ⟨⟨ts, consecutive linearQ (ts.zip ys)⟩, ?_, hv, rfl, ?_⟩
  · unfold firstOrderHold
    rw [(checkInput_iff ts ys 2).2 ⟨h1, h2, h3⟩, firstOrderPieces_eq]
    exact make_ok h3 _
  · intro t i a b y z ha hb hy hz k1 k2
    obtain ⟨ha1, ha2⟩ := List.getElem?_eq_some_iff.1 ha
    obtain ⟨hb1, hb2⟩ := List.getElem?_eq_some_iff.1 hb
    obtain ⟨hy1, hy2⟩ := List.getElem?_eq_some_iff.1 hy
    obtain ⟨hz1, hz2⟩ := List.getElem?_eq_some_iff.1 hz
    subst ha2 hb2 hy2 hz2
    obtain ⟨m1, m2⟩ := hv.segment_mem (t := t) (i := i) hb1 k1 k2
    rw [hv.evalDerivative, saturated_of_mem m1 m2]
    have hpiece : ∀ j (hj : j + 1 < ts.length), (consecutive linearQ (ts.zip ys))[j]'(by rw [consecutive_length]; omega) =
        linearQ (ts[j], ys[j]) (ts[j + 1], ys[j + 1]) := by
      intro j hj
      rw [consecutive_getElem linearQ _ j (by omega)]; simp
    have := evalPieces_closed hv.lengths hv.increasing 0 (fun j hj => by
      simp only [consecutive_length] at hj
      dsimp only
      rw [hpiece j (by omega), hpiece (j + 1) (by omega)]
      unfold linearQ
      rw [derivAt_linear, derivAt_linear]
      have := (gap_ne h3 j (by omega)).ne'
      field_simp; ring) i (by simp only [consecutive_length]; omega) t k1 k2
    rw [this]
    dsimp only
    rw [hpiece i hb1]
    unfold linearQ
    rw [derivAt_linear]
    congr 2; ring

example : [(0 : ℚ), 1/2, 1, 2, 3, 9].map (fun t => (firstOrderHold [0, 1, 3] [5, 7, 2]).bind (·.evalDerivative t 0)) =
    [.ok 5, .ok 6, .ok 7, .ok (9/2), .ok 2, .ok 2] := by decide +kernel

/-- C97. `CubicHermite` has the samples and their derivatives at the times, and a cubic polynomial between them. -/
theorem cubic_hermite (ts ys ds : List R) (h1 : ts.length = ys.length) (h2 : ts.length = ds.length)
    (h3 : 2 ≤ ts.length) (h4 : Apart ts) :
    ∃ p, cubicHermite ts ys ds = .ok p ∧ Valid p ∧ p.breaks = ts ∧
      (∀ (i : Nat) (a y d : R), ts[i]? = some a → ys[i]? = some y → ds[i]? = some d →
        p.evalDerivative a 0 = .ok y ∧ p.evalDerivative a 1 = .ok d) ∧
      ∀ i a b, ts[i]? = some a → ts[i + 1]? = some b → ∃ c0 c1 c2 c3 : R, ∀ t, a ≤ t → t ≤ b →
        p.evalDerivative t 0 = .ok (c0 + c1 * (t - a) + c2 * (t - a) ^ 2 + c3 * (t - a) ^ 3) := by
  have hv := hermitePP_valid h1 h2 h3 h4
  refine ⟨hermitePP ts ys ds, cubicHermite_eq h1 h2 h3 h4, hv, rfl, ?_, ?_⟩
  · intro i a y d ha hy hd
    obtain ⟨ha1, ha2⟩ := List.getElem?_eq_some_iff.1 ha
    obtain ⟨hy1, hy2⟩ := List.getElem?_eq_some_iff.1 hy
    obtain ⟨hd1, hd2⟩ := List.getElem?_eq_some_iff.1 hd
    subst ha2 hy2 hd2
    by_cases hi : i + 1 < ts.length
    · have hg := (gap_ne h4 i hi).le
      have e0 := hermitePP_eval h1 h2 h3 h4 0 (by omega) i hi ts[i] (le_refl _) (by linarith)
      have e1 := hermitePP_eval h1 h2 h3 h4 1 (by omega) i hi ts[i] (le_refl _) (by linarith)
      rw [sub_self, hermiteQ_start] at e0
      rw [sub_self, hermiteQ_start'] at e1
      exact ⟨e0, e1⟩
    · obtain ⟨j, rfl⟩ : ∃ j, i = j + 1 := ⟨i - 1, by omega⟩
      have hg := gap_ne h4 j ha1
      have e0 := hermitePP_eval h1 h2 h3 h4 0 (by omega) j ha1 ts[j + 1] (by linarith) (le_refl _)
      have e1 := hermitePP_eval h1 h2 h3 h4 1 (by omega) j ha1 ts[j + 1] (by linarith) (le_refl _)
      rw [e0, e1]
      exact ⟨congrArg _ (hermiteQ_end (ts[j], ys[j], ds[j]) (ts[j + 1], ys[j + 1], ds[j + 1]) hg.ne'),
        congrArg _ (hermiteQ_end' (ts[j], ys[j], ds[j]) (ts[j + 1], ys[j + 1], ds[j + 1]) hg.ne')⟩
  · intro i a b ha hb
    obtain ⟨ha1, ha2⟩ := List.getElem?_eq_some_iff.1 ha
    obtain ⟨hb1, hb2⟩ := List.getElem?_eq_some_iff.1 hb
    subst ha2 hb2
    have hq : ∃ c0 c1 c2 c3 : R, hermiteQ (ts[i], ys[i], ds[i]) (ts[i + 1], ys[i + 1], ds[i + 1]) =
      ofCoefficients tVar [c0, c1, c2, c3] := ⟨_, _, _, _, rfl⟩
    obtain ⟨c0, c1, c2, c3, hq⟩ := hq
    refine ⟨c0, c1, c2, c3, fun t k1 k2 => ?_⟩
    rw [hermitePP_eval h1 h2 h3 h4 0 (by omega) i hb1 t k1 k2, hq, derivAt_cubic]

example : [(0 : ℚ), 1/2, 1, 2, 3, 9].map (fun t => (cubicHermite [0, 1, 3] [5, 7, 2] [1, 0, -1]).bind (·.evalDerivative t 0)) =
    [.ok 5, .ok (49/8), .ok 7, .ok (19/4), .ok 2, .ok 2] := by decide +kernel

/-- C97. The three constructors accept exactly samples of the same number as the times, at least two, with times
that are at least `kEpsilonTime` apart, and throw otherwise. -/
theorem interpolation_refuses (ts ys ds : List R) :
    (¬(ts.length = ys.length ∧ 2 ≤ ts.length ∧ Apart ts) → zeroOrderHold ts ys = .error .throws ∧
      firstOrderHold ts ys = .error .throws ∧ cubicHermite ts ys ds = .error .throws ∧
      cubicShapePreserving ts ys true = .error .throws) ∧
    (¬(ts.length = ys.length ∧ 3 ≤ ts.length ∧ Apart ts) → cubicShapePreserving ts ys false = .error .throws) ∧
    (ts.length ≠ ds.length → cubicHermite ts ys ds = .error .throws) := by
  refine ⟨fun h => ?_, fun h => ?_, fun h => ?_⟩
  · have := checkInput_error (n := 2) h
    unfold zeroOrderHold firstOrderHold cubicHermite cubicShapePreserving
    simp only [if_true]
    rw [this]
    exact ⟨rfl, rfl, rfl, rfl⟩
  · unfold cubicShapePreserving
    simp only [Bool.false_eq_true, if_false]
    rw [checkInput_error (n := 3) h]; rfl
  · unfold cubicHermite
    by_cases hc : ts.length = ys.length ∧ 2 ≤ ts.length ∧ Apart ts
    · rw [(checkInput_iff ts ys 2).2 hc]
      simp [throwUnless, h, bind, Except.bind]
    · rw [checkInput_error hc]; rfl

example : zeroOrderHold [0, 1] [(5 : ℚ), 7, 2] = .error .throws ∧ firstOrderHold [(0 : ℚ)] [5] = .error .throws ∧
    cubicHermite [0, (1 : ℚ), 1] [5, 7, 2] [0, 0, 0] = .error .throws ∧
    cubicShapePreserving [0, (1 : ℚ)] [5, 7] false = .error .throws := by decide +kernel

end interpolation

/-- C97. `CubicHermite` is continuous, and so is its derivative. -/
theorem cubic_hermite_smooth (ts ys ds : List ℝ) (h1 : ts.length = ys.length) (h2 : ts.length = ds.length)
    (h3 : 2 ≤ ts.length) (h4 : Apart ts) (p : PP ℝ) (hp : cubicHermite ts ys ds = .ok p) :
    ∃ f f' : ℝ → ℝ, (∀ t, p.evalDerivative t 0 = .ok (f t)) ∧ (∀ t, p.evalDerivative t 1 = .ok (f' t)) ∧
      Continuous f ∧ Continuous f' ∧ ∀ t, first p < t → t < last p → HasDerivAt f (f' t) t := by
  have hv := hermitePP_valid h1 h2 h3 h4
  have he : p = hermitePP ts ys ds := by
    have := cubicHermite_eq h1 h2 h3 h4
    rw [hp] at this
    exact Except.ok.inj this
  subst he
  have hm : ∀ n, n < 2 → ∀ t, MatchAt n t (hermitePP ts ys ds).breaks (hermitePP ts ys ds).polynomials := fun n hn t =>
    matchAt_of hv.lengths fun i hi _ => hermitePP_match h1 h2 h3 h4 n hn i hi
  refine ⟨_, _, fun t => hv.evalDerivative t 0, fun t => hv.evalDerivative t 1, ?_, ?_, fun t k1 k2 => ?_⟩
  · exact (evalPieces_continuous 0 _ _ hv.lengths hv.increasing (hm 0 (by omega))).comp
      (saturated_continuous _ hv.first_lt_last.le)
  · exact (evalPieces_continuous 1 _ _ hv.lengths hv.increasing (hm 1 (by omega))).comp
      (saturated_continuous _ hv.first_lt_last.le)
  · rw [saturated_of_mem k1.le k2.le]
    refine (evalPieces_hasDerivAt 0 t _ _ hv.lengths hv.increasing (hm 0 (by omega) t)
      (hm 1 (by omega) t)).congr_of_eventuallyEq ?_
    filter_upwards [saturated_eventually _ k1 k2] with s hs
    rw [hs]

example : ([0, 1, 3] : List ℝ).length = ([5, 7, 2] : List ℝ).length ∧ Apart ([0, 1, 3] : List ℝ) := by
  refine ⟨rfl, ?_⟩
  norm_num [Apart, epsilonTime]

/-! C98: the interpolation that preserves the shape. -/

section shape
variable {R : Type} [Field R] [LinearOrder R] [IsStrictOrderedRing R]

/-- C98. `CubicShapePreserving` has the samples at the times, and between two of them does not decrease if the second
is not less and does not increase if it is not more.  With `zero_end_point_derivatives`, for all samples; without,
when no slope between consecutive samples is other than zero and within 1e-10 of it. -/
theorem shape_preserving_partial (ts ys : List R) (zeroEnds : Bool) (h1 : ts.length = ys.length)
    (h2 : (if zeroEnds then 2 else 3) ≤ ts.length) (h3 : Apart ts)
    (h4 : zeroEnds = false → ∀ i a b y z, ts[i]? = some a → ts[i + 1]? = some b → ys[i]? = some y → ys[i + 1]? = some z →
      (z - y) / (b - a) = 0 ∨ 1 / 10000000000 < |(z - y) / (b - a)|) :
    ∃ p, cubicShapePreserving ts ys zeroEnds = .ok p ∧ Valid p ∧ p.breaks = ts ∧
      (∀ (i : Nat) (a y : R), ts[i]? = some a → ys[i]? = some y → p.evalDerivative a 0 = .ok y) ∧
      (zeroEnds = true → p.evalDerivative (first p) 1 = .ok 0 ∧ p.evalDerivative (last p) 1 = .ok 0) ∧
      ∀ i a b y z s t u v, ts[i]? = some a → ts[i + 1]? = some b → ys[i]? = some y → ys[i + 1]? = some z →
        a ≤ s → s ≤ t → t ≤ b → p.evalDerivative s 0 = .ok u → p.evalDerivative t 0 = .ok v →
        (y ≤ z → u ≤ v) ∧ (z ≤ y → v ≤ u) := by
  have h2' : 2 ≤ ts.length := by split at h2 <;> omega
  obtain ⟨ds, hds, he, hlim, hz⟩ := cubicShape_eq h1 h2 h3 fun hz i hi =>
    h4 hz i _ _ _ _ (List.getElem?_eq_getElem (by omega)) (List.getElem?_eq_getElem hi)
      (List.getElem?_eq_getElem (by omega)) (List.getElem?_eq_getElem (by omega))
  have hv := hermitePP_valid h1 hds h2' h3
  obtain ⟨p, hp1, -, -, hp2, -⟩ := cubic_hermite ts ys ds h1 hds h2' h3
  rw [cubicHermite_eq h1 hds h2' h3] at hp1
  have hpe : hermitePP ts ys ds = p := Except.ok.inj hp1
  subst hpe
  refine ⟨hermitePP ts ys ds, he, hv, rfl, ?_, ?_, ?_⟩
  · intro i a y ha hy
    have hi := (List.getElem?_eq_some_iff.1 ha).1
    exact (hp2 i a y _ ha hy (List.getElem?_eq_getElem (show i < ds.length by omega))).1
  · intro hzt
    obtain ⟨z1, z2⟩ := hz hzt
    rw [List.head?_eq_getElem?] at z1
    rw [List.getLast?_eq_getElem?, ← hds] at z2
    constructor
    · rw [hv.first_eq]
      exact (hp2 0 _ _ _ (List.getElem?_eq_getElem (show 0 < ts.length by omega)) (List.getElem?_eq_getElem (by omega)) z1).2
    · rw [hv.last_eq]
      exact (hp2 (ts.length - 1) _ _ _ (List.getElem?_eq_getElem (show ts.length - 1 < ts.length by omega))
        (List.getElem?_eq_getElem (by omega)) z2).2
  · intro i a b y z s t u v ha hb hy hz k1 k2 k3 hu hw
    obtain ⟨ha1, ha2⟩ := List.getElem?_eq_some_iff.1 ha
    obtain ⟨hb1, hb2⟩ := List.getElem?_eq_some_iff.1 hb
    obtain ⟨hy1, hy2⟩ := List.getElem?_eq_some_iff.1 hy
    obtain ⟨hz1, hz2⟩ := List.getElem?_eq_some_iff.1 hz
    subst ha2 hb2 hy2 hz2
    rw [hermitePP_eval h1 hds h2' h3 0 (by omega) i hb1 s k1 (k2.trans k3)] at hu
    rw [hermitePP_eval h1 hds h2' h3 0 (by omega) i hb1 t (k1.trans k2) k3] at hw
    have hu := Except.ok.inj hu
    have hw := Except.ok.inj hw
    subst hu hw
    have hg := gap_ne h3 i hb1
    obtain ⟨l0, l1⟩ := hlim i hb1
    constructor
    · intro hle
      exact hermiteQ_mono (a := (ts[i], ys[i], ds[i])) (b := (ts[i + 1], ys[i + 1], ds[i + 1])) hg l0 l1 hle
        (by linarith) (by linarith) (by show _ ≤ ts[i + 1] - ts[i]; linarith)
    · intro hle
      exact hermiteQ_anti (a := (ts[i], ys[i], ds[i])) (b := (ts[i + 1], ys[i + 1], ds[i + 1])) hg l0 l1 hle
        (by linarith) (by linarith) (by show _ ≤ ts[i + 1] - ts[i]; linarith)

example : ([0, 1/2, 1, 3/2, 2, 3, 4] : List ℚ).map (fun t =>
    (cubicShapePreserving [0, 1, 2, 4] [0, 0, 3, (1 : ℚ)] false).bind (·.evalDerivative t 0)) =
      [.ok 0, .ok 0, .ok 0, .ok (3/2), .ok 3, .ok (11/4), .ok 1] := by decide +kernel

/-- C98: two equal samples, then one that is 1e-10 higher: the values between the equal ones are below both. -/
theorem shape_not_preserved :
    (cubicShapePreserving [0, 1, 2] [0, 0, (1 : ℚ) / 10000000000] false).bind (·.evalDerivative (1/2) 0) =
      .ok (-1 / 160000000000) := by decide +kernel

end shape

end Maliput.Props
