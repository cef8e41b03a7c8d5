import Verif.Lemmas.SplineSolve
import Mathlib.Analysis.Calculus.Deriv.Pow
import Mathlib.Analysis.Calculus.Deriv.Add
import Mathlib.Topology.Order.DenselyOrdered
import Mathlib.Topology.Separation.Hausdorff

set_option autoImplicit false
set_option linter.unusedSectionVars false

/-! Cubic splines as functions and their coefficients. -/
namespace Maliput.Piecewise

open Maliput Poly Spec

theorem derivAt_cubic'' (x a b c d : ℝ) : derivAt 2 x (ofCoefficients tVar [a, b, c, d]).monomials =
    2 * c + 6 * d * x := by
  simp [derivAt, ofCoefficients, Monomial.firstPower, Nat.descFactorial]; ring

/-- A function and two derivatives of it have coefficients on all segments. -/
structure HasCoeffs (ts ys : List ℝ) (m : Nat) (x : Nat → ℝ) (f f' f'' : ℝ → ℝ) : Prop where
  value : ∀ i < m, ∀ t, ts.getD i 0 ≤ t → t ≤ ts.getD (i + 1) 0 → f t = ys.getD i 0 + x (3 * i) * (t - ts.getD i 0) +
    x (3 * i + 1) * (t - ts.getD i 0) ^ 2 + x (3 * i + 2) * (t - ts.getD i 0) ^ 3
  slope : ∀ i < m, ∀ t, ts.getD i 0 ≤ t → t ≤ ts.getD (i + 1) 0 → f' t = x (3 * i) +
    2 * x (3 * i + 1) * (t - ts.getD i 0) + 3 * x (3 * i + 2) * (t - ts.getD i 0) ^ 2
  bend : ∀ i < m, ∀ t, ts.getD i 0 ≤ t → t ≤ ts.getD (i + 1) 0 → f'' t =
    2 * x (3 * i + 1) + 6 * x (3 * i + 2) * (t - ts.getD i 0)

theorem cubicOn_shift {f : ℝ → ℝ} {u v w a b c d : ℝ}
    (h : ∀ t, u ≤ t → t ≤ v → f t = a + b * (t - w) + c * (t - w) ^ 2 + d * (t - w) ^ 3) : CubicOn f u v :=
  ⟨a - b * w + c * w ^ 2 - d * w ^ 3, b - 2 * c * w + 3 * d * w ^ 2, c - 3 * d * w, d,
    fun t h1 h2 => by rw [h t h1 h2]; ring⟩

theorem cubicOn_coeffs {f : ℝ → ℝ} {u v : ℝ} (w : ℝ) (h : CubicOn f u v) : ∃ a b c d : ℝ,
    ∀ t, u ≤ t → t ≤ v → f t = a + b * (t - w) + c * (t - w) ^ 2 + d * (t - w) ^ 3 := by
  obtain ⟨a, b, c, d, h⟩ := h
  exact ⟨a + b * w + c * w ^ 2 + d * w ^ 3, b + 2 * c * w + 3 * d * w ^ 2, c + 3 * d * w, d,
    fun t h1 h2 => by rw [h t h1 h2]; ring⟩

/-- Two cubic polynomials that agree on a segment have the same coefficients. -/
theorem cubic_eq {u v w a b c d a' b' c' d' : ℝ} (huv : u < v)
    (h : ∀ t, u ≤ t → t ≤ v → a + b * (t - w) + c * (t - w) ^ 2 + d * (t - w) ^ 3 =
      a' + b' * (t - w) + c' * (t - w) ^ 2 + d' * (t - w) ^ 3) : d = d' ∧ c = c' := by
  set k := (v - u) / 3 with hk
  have hk0 : 0 < k := by rw [hk]; linarith
  have hv : v = u + 3 * k := by rw [hk]; ring
  have e0 := h u le_rfl huv.le
  have e1 := h (u + k) (by linarith) (by linarith)
  have e2 := h (u + 2 * k) (by linarith) (by linarith)
  have e3 := h (u + 3 * k) (by linarith) (by linarith)
  have hd : d = d' := by
    have k3 : k ^ 3 ≠ 0 := by positivity
    apply mul_right_cancel₀ k3
    linear_combination (1 / 6) * (e3 - 3 * e2 + 3 * e1 - e0)
  subst hd
  have hc : c = c' := by
    have k2 : k ^ 2 ≠ 0 := by positivity
    apply mul_right_cancel₀ k2
    linear_combination (1 / 2) * (e2 - 2 * e1 + e0)
  exact ⟨rfl, hc⟩

section data
variable {ts ys : List ℝ} {m : Nat} (hm : ts.length = m + 1) (hy : ys.length = m + 1) (h1 : 1 ≤ m) (ha : Apart ts)
include hm hy h1 ha

theorem getD_lt (i : Nat) (hi : i < m) : ts.getD i 0 < ts.getD (i + 1) 0 := by
  have := stepAt_pos ha m hm i hi
  unfold stepAt at this
  linarith

theorem getD_le : ∀ (j i : Nat), i ≤ j → j ≤ m → ts.getD i 0 ≤ ts.getD j 0 := by
  intro j
  induction j with
  | zero => intro i hi _; rw [Nat.le_zero.1 hi]
  | succ j ih =>
    intro i hi hj
    rcases Nat.lt_or_ge i (j + 1) with h | h
    · exact (ih i (by omega) (by omega)).trans (getD_lt hm hy h1 ha j (by omega)).le
    · rw [show i = j + 1 by omega]

theorem headD_eq : ts.headD 0 = ts.getD 0 0 := by cases ts <;> rfl

theorem getLastD_eq : ts.getLastD 0 = ts.getD m 0 := by
  rw [List.getLastD_eq_getLast?, List.getLast?_eq_getElem?, show ts.length - 1 = m by omega, List.getD_eq_getElem?_getD]

theorem get?_eq {i : Nat} {t : ℝ} (h : ts[i]? = some t) : i ≤ m ∧ t = ts.getD i 0 := by
  obtain ⟨hi, rfl⟩ := List.getElem?_eq_some_iff.1 h
  exact ⟨by omega, (getD_eq hi).symm⟩

/-- A time between the ends belongs to a segment. -/
theorem exists_segment {t : ℝ} (h0 : ts.getD 0 0 ≤ t) (hl : t ≤ ts.getD m 0) :
    ∃ i < m, ts.getD i 0 ≤ t ∧ t ≤ ts.getD (i + 1) 0 := by
  have key : ∀ k, k < m → t ≤ ts.getD (k + 1) 0 → ∃ i < m, ts.getD i 0 ≤ t ∧ t ≤ ts.getD (i + 1) 0 := by
    intro k
    induction k with
    | zero => intro hk ht; exact ⟨0, hk, h0, ht⟩
    | succ k ih =>
      intro hk ht
      rcases le_total (ts.getD (k + 1) 0) t with h | h
      · exact ⟨k + 1, hk, h, ht⟩
      · exact ih (by omega) h
  exact key (m - 1) (by omega) (by rw [show m - 1 + 1 = m by omega]; exact hl)

theorem hasCoeffs_eq {x y : Nat → ℝ} {f f' f'' g g' g'' : ℝ → ℝ} (hf : HasCoeffs ts ys m x f f' f'')
    (hg : HasCoeffs ts ys m y g g' g'') (hxy : ∀ i < 3 * m, x i = y i) (t : ℝ) (h0 : ts.headD 0 ≤ t)
    (hl : t ≤ ts.getLastD 0) : f t = g t ∧ f' t = g' t ∧ f'' t = g'' t := by
  rw [headD_eq hm hy h1 ha] at h0
  rw [getLastD_eq hm hy h1 ha] at hl
  obtain ⟨i, hi, a, b⟩ := exists_segment hm hy h1 ha h0 hl
  rw [hf.value i hi t a b, hf.slope i hi t a b, hf.bend i hi t a b, hg.value i hi t a b, hg.slope i hi t a b,
    hg.bend i hi t a b, hxy (3 * i) (by omega), hxy (3 * i + 1) (by omega), hxy (3 * i + 2) (by omega)]
  exact ⟨rfl, rfl, rfl⟩

/-- The piecewise polynomial with given coefficients. -/
theorem splinePP_valid (x : Nat → ℝ) : Valid (⟨ts, splinePieces ys m x⟩ : PP ℝ) where
  lengths := by simp [splinePieces, hm]
  segments := by simp [splinePieces]; omega
  increasing := ha.increasing
  univariate := fun q hq => by
    obtain ⟨i, _, rfl⟩ := List.mem_map.1 hq
    rfl

theorem splinePieces_getElem (x : Nat → ℝ) (i : Nat) (hi : i < (splinePieces ys m x).length) :
    (splinePieces ys m x)[i] = ofCoefficients tVar [ys.getD i 0, x (3 * i), x (3 * i + 1), x (3 * i + 2)] := by
  simp [splinePieces]

theorem splinePP_match {x : Nat → ℝ} (hj : Joined (stepAt ts) (fun i => ys.getD (i + 1) 0 - ys.getD i 0) m x)
    (n : Nat) (hn : n < 3) (i : Nat) (hi : i + 1 < (splinePieces ys m x).length) :
    derivAt n (ts[i + 1]'(by simp [splinePieces] at hi; omega) - ts[i]'(by simp [splinePieces] at hi; omega))
      (splinePieces ys m x)[i].monomials = derivAt n 0 (splinePieces ys m x)[i + 1].monomials := by
  have hi' : i + 1 < m := by simpa [splinePieces] using hi
  rw [splinePieces_getElem hm hy h1 ha, splinePieces_getElem hm hy h1 ha, ← getD_eq, ← getD_eq]
  have hs : ts.getD (i + 1) 0 - ts.getD i 0 = stepAt ts i := rfl
  rw [hs]
  have v := hj.value i (by omega)
  have s := hj.slope i hi'
  have b := hj.bend i hi'
  match n, hn with
  | 0, _ => rw [derivAt_cubic, derivAt_cubic]; linear_combination v
  | 1, _ => rw [derivAt_cubic', derivAt_cubic']; linear_combination s
  | 2, _ => rw [derivAt_cubic'', derivAt_cubic'']; linear_combination 2 * b

/-- What the piecewise polynomial returns is a cubic spline with these coefficients. -/
theorem splinePP_spline {x : Nat → ℝ} (hj : Joined (stepAt ts) (fun i => ys.getD (i + 1) 0 - ys.getD i 0) m x) :
    ∃ f f' f'' : ℝ → ℝ, Returns ⟨ts, splinePieces ys m x⟩ f f' f'' ∧ HasCoeffs ts ys m x f f' f'' ∧
      CubicSpline ts ys f f' f'' := by
  have hv := splinePP_valid hm hy h1 ha x
  have hmat : ∀ n, n < 3 → ∀ t, MatchAt n t ts (splinePieces ys m x) := fun n hn t =>
    matchAt_of hv.lengths fun i hi _ => splinePP_match hm hy h1 ha hj n hn i hi
  have hfirst : first (⟨ts, splinePieces ys m x⟩ : PP ℝ) = ts.headD 0 := rfl
  have hlast : last (⟨ts, splinePieces ys m x⟩ : PP ℝ) = ts.getLastD 0 := rfl
  have hl : (splinePieces ys m x).length = m := by simp [splinePieces]
  have heval : ∀ n, n < 3 → ∀ i < m, ∀ t, ts.getD i 0 ≤ t → t ≤ ts.getD (i + 1) 0 →
      evalPieces n (saturated ⟨ts, splinePieces ys m x⟩ t) ts (splinePieces ys m x) = derivAt n (t - ts.getD i 0)
        (ofCoefficients tVar [ys.getD i 0, x (3 * i), x (3 * i + 1), x (3 * i + 2)]).monomials := by
    intro n hn i hi t a b
    rw [getD_eq (by omega)] at a b
    obtain ⟨m1, m2⟩ := hv.segment_mem (t := t) (i := i) (by show i + 1 < ts.length; omega) a b
    rw [saturated_of_mem m1 m2, getD_eq (by omega), ← splinePieces_getElem hm hy h1 ha x i (by omega)]
    exact evalPieces_closed (qs := splinePieces ys m x) hv.lengths hv.increasing n (splinePP_match hm hy h1 ha hj n hn) i
      (by rw [hl]; exact hi) t a b
  have hc : HasCoeffs ts ys m x
      (fun t => evalPieces 0 (saturated ⟨ts, splinePieces ys m x⟩ t) ts (splinePieces ys m x))
      (fun t => evalPieces 1 (saturated ⟨ts, splinePieces ys m x⟩ t) ts (splinePieces ys m x))
      (fun t => evalPieces 2 (saturated ⟨ts, splinePieces ys m x⟩ t) ts (splinePieces ys m x)) := by
    refine ⟨fun i hi t a b => ?_, fun i hi t a b => ?_, fun i hi t a b => ?_⟩
    · rw [heval 0 (by omega) i hi t a b, derivAt_cubic]
    · rw [heval 1 (by omega) i hi t a b, derivAt_cubic']
    · rw [heval 2 (by omega) i hi t a b, derivAt_cubic'']
  have hcont : ∀ n, n < 3 → Continuous fun t =>
      evalPieces n (saturated ⟨ts, splinePieces ys m x⟩ t) ts (splinePieces ys m x) := fun n hn =>
    (evalPieces_continuous n _ _ hv.lengths hv.increasing (hmat n hn)).comp (saturated_continuous _ hv.first_lt_last.le)
  have hder : ∀ n, n + 1 < 3 → ∀ t, ts.headD 0 < t → t < ts.getLastD 0 → HasDerivAt
      (fun t => evalPieces n (saturated ⟨ts, splinePieces ys m x⟩ t) ts (splinePieces ys m x))
      (evalPieces (n + 1) (saturated ⟨ts, splinePieces ys m x⟩ t) ts (splinePieces ys m x)) t := by
    intro n hn t k1 k2
    rw [← hfirst] at k1
    rw [saturated_of_mem k1.le (le_of_lt k2)]
    refine (evalPieces_hasDerivAt n t _ _ hv.lengths hv.increasing (hmat n (by omega) t)
      (hmat (n + 1) hn t)).congr_of_eventuallyEq ?_
    filter_upwards [saturated_eventually _ k1 k2] with s hs
    rw [hs]
  refine ⟨_, _, _, fun t => ⟨hv.evalDerivative t 0, hv.evalDerivative t 1, hv.evalDerivative t 2⟩, hc, ?_, ?_,
    hder 0 (by omega), hder 1 (by omega), (hcont 1 (by omega)).continuousOn, (hcont 2 (by omega)).continuousOn⟩
  · intro i u v hu hv'
    obtain ⟨_, rfl⟩ := get?_eq hm hy h1 ha hu
    obtain ⟨hi, rfl⟩ := get?_eq hm hy h1 ha hv'
    exact cubicOn_shift fun t a b => hc.value i (by omega) t a b
  · intro i t y ht hy'
    obtain ⟨hi, rfl⟩ := get?_eq hm hy h1 ha ht
    have hyi : y = ys.getD i 0 := by
      obtain ⟨hi, rfl⟩ := List.getElem?_eq_some_iff.1 hy'
      exact (getD_eq hi).symm
    rcases Nat.lt_or_ge i m with h | h
    · rw [hc.value i h _ le_rfl (getD_lt hm hy h1 ha i h).le, hyi]; ring
    · obtain rfl : i = m := by omega
      obtain ⟨k, rfl⟩ : ∃ k, i = k + 1 := ⟨i - 1, by omega⟩
      have v := hj.value k (by omega)
      have hs : ts.getD (k + 1) 0 - ts.getD k 0 = stepAt ts k := rfl
      rw [hc.value k (by omega) _ (getD_lt hm hy h1 ha k (by omega)).le le_rfl, hs, hyi]
      linear_combination v

/-- The derivative of a cubic polynomial on a segment, up to its ends. -/
theorem segment_deriv {g g' k k' : ℝ → ℝ} {u v : ℝ} (huv : u < v) (hg : ∀ t, u ≤ t → t ≤ v → g t = k t)
    (hk : ∀ t, HasDerivAt k (k' t) t) (hd : ∀ t, u < t → t < v → HasDerivAt g (g' t) t)
    (hc : ContinuousOn g' (Set.Icc u v)) (hk' : Continuous k') : ∀ t, u ≤ t → t ≤ v → g' t = k' t := by
  have hin : Set.EqOn g' k' (Set.Ioo u v) := by
    rintro t ⟨a, b⟩
    refine (hd t a b).unique ((hk t).congr_of_eventuallyEq ?_)
    filter_upwards [Ioo_mem_nhds a b] with s hs
    exact hg s hs.1.le hs.2.le
  have := hin.of_subset_closure hc hk'.continuousOn Set.Ioo_subset_Icc_self (by rw [closure_Ioo huv.ne])
  intro t a b
  exact this ⟨a, b⟩

/-- The coefficients of a cubic spline. -/
theorem exists_coeffs {g g' g'' : ℝ → ℝ} (hg : CubicSpline ts ys g g' g'') :
    ∃ x, HasCoeffs ts ys m x g g' g'' ∧ Joined (stepAt ts) (fun i => ys.getD (i + 1) 0 - ys.getD i 0) m x := by
  have hex : ∀ i, ∃ b c d : ℝ, i < m → ∀ t, ts.getD i 0 ≤ t → t ≤ ts.getD (i + 1) 0 → g t = ys.getD i 0 +
      b * (t - ts.getD i 0) + c * (t - ts.getD i 0) ^ 2 + d * (t - ts.getD i 0) ^ 3 := by
    intro i
    by_cases hi : i < m
    · have e0 : ts[i]? = some (ts.getD i 0) := by rw [getD_eq (by omega)]; exact List.getElem?_eq_getElem _
      have e1 : ts[i + 1]? = some (ts.getD (i + 1) 0) := by rw [getD_eq (by omega)]; exact List.getElem?_eq_getElem _
      have e2 : ys[i]? = some (ys.getD i 0) := by rw [getD_eq (by omega)]; exact List.getElem?_eq_getElem _
      obtain ⟨a, b, c, d, h⟩ := cubicOn_coeffs (ts.getD i 0) (hg.cubic i _ _ e0 e1)
      have h0 := h _ le_rfl (getD_lt hm hy h1 ha i hi).le
      rw [hg.samples i _ _ e0 e2] at h0
      refine ⟨b, c, d, fun _ t k1 k2 => ?_⟩
      rw [h t k1 k2, h0]; ring
    · exact ⟨0, 0, 0, fun h => absurd h hi⟩
  choose b c d hcoef using hex
  let x : Nat → ℝ := fun j => if j % 3 = 0 then b (j / 3) else if j % 3 = 1 then c (j / 3) else d (j / 3)
  have x0 : ∀ i, x (3 * i) = b i := by
    intro i; simp only [x]; rw [if_pos (by omega), show 3 * i / 3 = i by omega]
  have x1 : ∀ i, x (3 * i + 1) = c i := by
    intro i; simp only [x]; rw [if_neg (by omega), if_pos (by omega), show (3 * i + 1) / 3 = i by omega]
  have x2 : ∀ i, x (3 * i + 2) = d i := by
    intro i; simp only [x]; rw [if_neg (by omega), if_neg (by omega), show (3 * i + 2) / 3 = i by omega]
  have hsub : ∀ i < m, Set.Icc (ts.getD i 0) (ts.getD (i + 1) 0) ⊆ Set.Icc (ts.headD 0) (ts.getLastD 0) := by
    intro i hi
    rw [headD_eq hm hy h1 ha, getLastD_eq hm hy h1 ha]
    exact Set.Icc_subset_Icc (getD_le hm hy h1 ha i 0 (by omega) (by omega)) (getD_le hm hy h1 ha m (i + 1) (by omega) le_rfl)
  have hmem : ∀ i < m, ∀ t, ts.getD i 0 < t → t < ts.getD (i + 1) 0 → ts.headD 0 < t ∧ t < ts.getLastD 0 := by
    intro i hi t k1 k2
    rw [headD_eq hm hy h1 ha, getLastD_eq hm hy h1 ha]
    exact ⟨(getD_le hm hy h1 ha i 0 (by omega) (by omega)).trans_lt k1,
      k2.trans_le (getD_le hm hy h1 ha m (i + 1) (by omega) le_rfl)⟩
  have hslope : ∀ i < m, ∀ t, ts.getD i 0 ≤ t → t ≤ ts.getD (i + 1) 0 → g' t = b i + 2 * c i * (t - ts.getD i 0) +
      3 * d i * (t - ts.getD i 0) ^ 2 := by
    intro i hi
    refine segment_deriv hm hy h1 ha (getD_lt hm hy h1 ha i hi) (hcoef i hi) (fun t => ?_)
      (fun t k1 k2 => hg.first t (hmem i hi t k1 k2).1 (hmem i hi t k1 k2).2) (hg.continuous_first.mono (hsub i hi)) ?_
    · have h := (hasDerivAt_id t).sub_const (ts.getD i 0)
      refine ((((hasDerivAt_const t (ys.getD i 0)).add (h.const_mul (b i))).add ((h.pow 2).const_mul (c i))).add
        ((h.pow 3).const_mul (d i))).congr_deriv ?_
      simp; ring
    · fun_prop
  have hbend : ∀ i < m, ∀ t, ts.getD i 0 ≤ t → t ≤ ts.getD (i + 1) 0 → g'' t = 2 * c i + 6 * d i * (t - ts.getD i 0) := by
    intro i hi
    refine segment_deriv hm hy h1 ha (getD_lt hm hy h1 ha i hi) (hslope i hi) (fun t => ?_)
      (fun t k1 k2 => hg.second t (hmem i hi t k1 k2).1 (hmem i hi t k1 k2).2) (hg.continuous_second.mono (hsub i hi)) ?_
    · have h := (hasDerivAt_id t).sub_const (ts.getD i 0)
      refine (((hasDerivAt_const t (b i)).add (h.const_mul (2 * c i))).add ((h.pow 2).const_mul (3 * d i))).congr_deriv ?_
      simp; ring
    · fun_prop
  refine ⟨x, ⟨?_, ?_, ?_⟩, ?_, ?_, ?_⟩
  · intro i hi t k1 k2; rw [x0, x1, x2]; exact hcoef i hi t k1 k2
  · intro i hi t k1 k2; rw [x0, x1, x2]; exact hslope i hi t k1 k2
  · intro i hi t k1 k2; rw [x1, x2]; exact hbend i hi t k1 k2
  · intro i hi
    rw [x0, x1, x2]
    have e1 : ts[i + 1]? = some (ts.getD (i + 1) 0) := by rw [getD_eq (by omega)]; exact List.getElem?_eq_getElem _
    have e2 : ys[i + 1]? = some (ys.getD (i + 1) 0) := by rw [getD_eq (by omega)]; exact List.getElem?_eq_getElem _
    have h := hcoef i hi _ (getD_lt hm hy h1 ha i hi).le le_rfl
    rw [hg.samples _ _ _ e1 e2] at h
    unfold stepAt
    linear_combination -h
  · intro i hi
    rw [x0, x1, x2, x0]
    have k0 := hslope i (by omega) _ (getD_lt hm hy h1 ha i (by omega)).le le_rfl
    have k1 := hslope (i + 1) hi _ le_rfl (getD_lt hm hy h1 ha (i + 1) hi).le
    unfold stepAt
    linear_combination k1 - k0
  · intro i hi
    rw [x1, x2, x1]
    have k0 := hbend i (by omega) _ (getD_lt hm hy h1 ha i (by omega)).le le_rfl
    have k1 := hbend (i + 1) hi _ le_rfl (getD_lt hm hy h1 ha (i + 1) hi).le
    unfold stepAt
    linear_combination (1 / 2) * (k1 - k0)

/-! The ends. -/

theorem clamped_coeffs {x : Nat → ℝ} {f f' f'' : ℝ → ℝ} (hc : HasCoeffs ts ys m x f f' f'') (d0 d1 : ℝ) :
    Clamped ts d0 d1 f' ↔ Solves (clampedRows ts d0 d1) x := by
  obtain ⟨k, rfl⟩ : ∃ k, m = k + 1 := ⟨m - 1, by omega⟩
  rw [clamped_iff ts d0 d1 k hm]
  unfold Clamped
  rw [headD_eq hm hy h1 ha, getLastD_eq hm hy h1 ha,
    hc.slope 0 (by omega) _ le_rfl (getD_lt hm hy h1 ha 0 (by omega)).le,
    hc.slope k (by omega) _ (getD_lt hm hy h1 ha k (by omega)).le le_rfl]
  simp [stepAt]

theorem periodic_coeffs {x : Nat → ℝ} {f f' f'' : ℝ → ℝ} (hc : HasCoeffs ts ys m x f f' f'') :
    Periodic ts f' f'' ↔ Solves (endRows ts true) x := by
  obtain ⟨k, rfl⟩ : ∃ k, m = k + 1 := ⟨m - 1, by omega⟩
  rw [periodic_iff ts k hm]
  unfold Periodic
  rw [headD_eq hm hy h1 ha, getLastD_eq hm hy h1 ha,
    hc.slope 0 (by omega) _ le_rfl (getD_lt hm hy h1 ha 0 (by omega)).le,
    hc.slope k (by omega) _ (getD_lt hm hy h1 ha k (by omega)).le le_rfl,
    hc.bend 0 (by omega) _ le_rfl (getD_lt hm hy h1 ha 0 (by omega)).le,
    hc.bend k (by omega) _ (getD_lt hm hy h1 ha k (by omega)).le le_rfl]
  have hs : ts.getD (k + 1) 0 - ts.getD k 0 = stepAt ts k := rfl
  rw [hs, sub_self]
  simp only [Nat.mul_zero, Nat.zero_add]
  constructor
  · rintro ⟨a, b⟩; exact ⟨by linear_combination -a, by linear_combination (-1 / 2) * b⟩
  · rintro ⟨a, b⟩; exact ⟨by linear_combination -a, by linear_combination (-2) * b⟩

/-- Two adjacent segments are the same cubic polynomial if and only if their third derivatives are the same. -/
theorem cubicOn_two {x : Nat → ℝ} {f f' f'' : ℝ → ℝ} (hc : HasCoeffs ts ys m x f f' f'')
    (hj : Joined (stepAt ts) (fun i => ys.getD (i + 1) 0 - ys.getD i 0) m x) (i : Nat) (hi : i + 1 < m) :
    CubicOn f (ts.getD i 0) (ts.getD (i + 2) 0) ↔ x (3 * i + 2) = x (3 * (i + 1) + 2) := by
  have l0 := getD_lt hm hy h1 ha i (by omega)
  have l1 := getD_lt hm hy h1 ha (i + 1) hi
  constructor
  · intro h
    obtain ⟨a, b, c, d, h0⟩ := cubicOn_coeffs (ts.getD i 0) h
    obtain ⟨a', b', c', d', h0'⟩ := h
    have e0 := cubic_eq (w := ts.getD i 0) l0 fun t k1 k2 =>
      (hc.value i (by omega) t k1 k2).symm.trans (h0 t k1 (k2.trans l1.le))
    have hs : ∀ t, ts.getD (i + 1) 0 ≤ t → t ≤ ts.getD (i + 2) 0 → f t =
        (a' + b' * ts.getD (i + 1) 0 + c' * ts.getD (i + 1) 0 ^ 2 + d' * ts.getD (i + 1) 0 ^ 3) +
        (b' + 2 * c' * ts.getD (i + 1) 0 + 3 * d' * ts.getD (i + 1) 0 ^ 2) * (t - ts.getD (i + 1) 0) +
        (c' + 3 * d' * ts.getD (i + 1) 0) * (t - ts.getD (i + 1) 0) ^ 2 + d' * (t - ts.getD (i + 1) 0) ^ 3 := by
      intro t k1 k2; rw [h0' t (l0.le.trans k1) k2]; ring
    have hs0 : ∀ t, ts.getD i 0 ≤ t → t ≤ ts.getD (i + 1) 0 → f t =
        (a' + b' * ts.getD i 0 + c' * ts.getD i 0 ^ 2 + d' * ts.getD i 0 ^ 3) +
        (b' + 2 * c' * ts.getD i 0 + 3 * d' * ts.getD i 0 ^ 2) * (t - ts.getD i 0) +
        (c' + 3 * d' * ts.getD i 0) * (t - ts.getD i 0) ^ 2 + d' * (t - ts.getD i 0) ^ 3 := by
      intro t k1 k2; rw [h0' t k1 (k2.trans l1.le)]; ring
    have e1 := cubic_eq (w := ts.getD (i + 1) 0) l1 fun t k1 k2 =>
      (hc.value (i + 1) hi t k1 k2).symm.trans (hs t k1 k2)
    have e2 := cubic_eq (w := ts.getD i 0) l0 fun t k1 k2 =>
      (hc.value i (by omega) t k1 k2).symm.trans (hs0 t k1 k2)
    rw [e1.1, e2.1]
  · intro e
    have v := hj.value i (by omega)
    have s := hj.slope i hi
    have b := hj.bend i hi
    refine cubicOn_shift (w := ts.getD i 0) (a := ys.getD i 0) (b := x (3 * i)) (c := x (3 * i + 1)) (d := x (3 * i + 2))
      fun t k1 k2 => ?_
    rcases le_total t (ts.getD (i + 1) 0) with h | h
    · exact hc.value i (by omega) t k1 h
    · rw [hc.value (i + 1) hi t h k2, ← e, ← s, ← b]
      have hs : ts.getD i 0 = ts.getD (i + 1) 0 - stepAt ts i := by unfold stepAt; ring
      rw [hs]
      linear_combination -v

theorem notAKnot_coeffs {x : Nat → ℝ} {f f' f'' : ℝ → ℝ} (hc : HasCoeffs ts ys m x f f' f'')
    (hj : Joined (stepAt ts) (fun i => ys.getD (i + 1) 0 - ys.getD i 0) m x) (h2 : 2 ≤ m) :
    NotAKnot ts f ↔ Solves (endRows ts false) x := by
  unfold NotAKnot
  by_cases h3 : ts.length = 3
  · rw [if_pos h3, quadratic_iff ts h3]
    obtain rfl : m = 2 := by omega
    have two := cubicOn_two hm hy h1 ha hc hj 0 (by omega)
    have l0 := getD_lt hm hy h1 ha 0 (by omega)
    have l1 := getD_lt hm hy h1 ha 1 (by omega)
    simp only [Nat.zero_add, Nat.mul_zero, Nat.mul_one, Nat.reduceAdd] at two l0 l1
    constructor
    · rintro ⟨a, b, c, h⟩
      have e : CubicOn f (ts.getD 0 0) (ts.getD 2 0) := ⟨a, b, c, 0, fun t k1 k2 => by rw [h t k1 k2]; ring⟩
      have e5 := two.1 e
      have hs : ∀ t, ts.getD 0 0 ≤ t → t ≤ ts.getD 1 0 → f t =
          (a + b * ts.getD 0 0 + c * ts.getD 0 0 ^ 2) + (b + 2 * c * ts.getD 0 0) * (t - ts.getD 0 0) +
          c * (t - ts.getD 0 0) ^ 2 + 0 * (t - ts.getD 0 0) ^ 3 := by
        intro t k1 k2; rw [h t k1 (k2.trans l1.le)]; ring
      have e2 := cubic_eq (w := ts.getD 0 0) l0 fun t k1 k2 =>
        (hc.value 0 (by omega) t k1 k2).symm.trans (hs t k1 k2)
      have e20 : x 2 = 0 := e2.1
      exact ⟨e20, e5.symm.trans e20⟩
    · rintro ⟨e2, e5⟩
      have v := hj.value 0 (by omega)
      have s := hj.slope 0 (by omega)
      have b := hj.bend 0 (by omega)
      simp only [Nat.zero_add, Nat.mul_zero, Nat.mul_one, Nat.reduceAdd] at v s b
      refine ⟨ys.getD 0 0 - x 0 * ts.getD 0 0 + x 1 * ts.getD 0 0 ^ 2, x 0 - 2 * x 1 * ts.getD 0 0, x 1,
        fun t k1 k2 => ?_⟩
      rcases le_total t (ts.getD 1 0) with h | h
      · have := hc.value 0 (by omega) t k1 h
        simp only [Nat.zero_add, Nat.mul_zero] at this
        rw [this, e2]; ring
      · have := hc.value 1 (by omega) t h k2
        simp only [Nat.mul_one, Nat.reduceAdd] at this
        rw [this, e5, ← s, ← b, e2]
        have hs : ts.getD 0 0 = ts.getD 1 0 - stepAt ts 0 := by unfold stepAt; ring
        rw [hs]
        rw [e2] at v
        linear_combination -v
  · rw [if_neg h3]
    obtain ⟨k, rfl⟩ : ∃ k, m = k + 1 := ⟨m - 1, by omega⟩
    rw [notAKnot_iff ts k hm (by omega)]
    have two := cubicOn_two hm hy h1 ha hc hj 0 (by omega)
    have two' := cubicOn_two hm hy h1 ha hc hj (k - 1) (by omega)
    rw [show k - 1 + 2 = k + 1 by omega, show k - 1 + 1 = k by omega] at two'
    rw [show ts.length - 3 = k - 1 by omega, show ts.length - 1 = k + 1 by omega]
    exact and_congr two two'

end data

end Maliput.Piecewise
