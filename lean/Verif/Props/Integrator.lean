import Verif.Lemmas.IntegratorFunctions
import Verif.Lemmas.Simpson
import Mathlib.Analysis.SpecialFunctions.Pow.Real
import Mathlib.Algebra.Order.Field.Rat

set_option autoImplicit false

/-!
Properties of the integrators of arc length and inverse arc length: what `Evaluate` gives (C101), that it returns (C102),
how it depends on earlier calls (C103) and how accurate its steps are (C104).

`after c n m calls` is the state of an integrator after any sequence of calls, some of which may have thrown; the numbers
`n` and `m` bound the attempts of a step and the steps of a call, and the theorems of C102 show that large enough ones do
not matter.
-/
namespace Maliput.Props

open Maliput Ode Ode.Spec
open Maliput.RouteGraph (Stop)

section
variable {R κ : Type} [Field R] [LinearOrder R] [IsStrictOrderedRing R] [DecidableEq κ]

/-- C101. Whatever calls have been made before, `Evaluate(p, k)` gives a value that steps of Kutta's third order method
lead to, from the lower bound of the domain and the initial value to `p`, all of them forward and none longer than the
maximum step size. -/
theorem evaluate_reaches (c : Setup R κ) (hroot : ∀ x, 0 ≤ x → x ≤ 1 → c.root x ≤ 1) (ha : 0 ≤ c.accuracy) (n m : Nat)
    (calls : List (Call R κ)) (p : R) (k : κ) (v : R) (h : (solve c n m p k (after c n m calls)).2 = .ok v) :
    Reaches (fun t x => c.f t x k) (Forward c.maxStep) c.t0 c.x0 p v := by
  have hu : Usable c := ⟨hroot, ha⟩
  obtain ⟨h1, h2⟩ := solve_spec hu n m p k _ (after_inv hu n m calls)
  obtain ⟨q1, q2, q3, -⟩ := h2 v h
  have := h1.reach
  rw [q1, q2, q3] at this
  exact this

/-- C101. For the arc length the value is the sum of Simpson's rule over a partition of the interval from the lower
bound to `p` with intervals that are not longer than the maximum step size. -/
theorem evaluate_simpson (root : R → R) (f : R → κ → R) (g : Configuration R κ)
    (hroot : ∀ x, 0 ≤ x → x ≤ 1 → root x ≤ 1) (ha : 0 ≤ g.accuracy) (n m : Nat)
    (calls : List (Call R κ)) (p : R) (k : κ) (v : R)
    (h : (solve (arcLength root f g) n m p k (after (arcLength root f g) n m calls)).2 = .ok v) :
    ∃ ts, Partition g.maxStep g.parameterLowerBound p ts ∧ v = simpson (f · k) ts := by
  obtain ⟨ts, h1, h2⟩ := (evaluate_reaches (arcLength root f g) hroot ha n m calls p k v h).partition (f := (f · k))
  exact ⟨ts, h1, by rw [h2]; exact zero_add _⟩

/-- C101. For an integrand that is a cubic polynomial the value is the integral. -/
theorem evaluate_cubic (root : R → R) (f : R → κ → R) (g : Configuration R κ)
    (hroot : ∀ x, 0 ≤ x → x ≤ 1 → root x ≤ 1) (ha : 0 ≤ g.accuracy) (n m : Nat)
    (calls : List (Call R κ)) (p : R) (k : κ) (v c0 c1 c2 c3 : R) (hf : ∀ t, f t k = c0 + c1 * t + c2 * t ^ 2 + c3 * t ^ 3)
    (h : (solve (arcLength root f g) n m p k (after (arcLength root f g) n m calls)).2 = .ok v) :
    let a := g.parameterLowerBound
    v = c0 * (p - a) + c1 / 2 * (p ^ 2 - a ^ 2) + c2 / 3 * (p ^ 3 - a ^ 3) + c3 / 4 * (p ^ 4 - a ^ 4) := by
  intro a
  obtain ⟨ts, h1, h2⟩ := evaluate_simpson root f g hroot ha n m calls p k v h
  rw [h2, show (f · k) = fun t => c0 + c1 * t + c2 * t ^ 2 + c3 * t ^ 3 from funext hf]
  exact simpson_cubic c0 c1 c2 c3 _ _ ts _ h1

/-- C101. For the inverse the steps lead from the lower bound of the image to `p`, and from the lower bound of the parameter to
the value; at the lower bound of the image the value is the lower bound of the parameter. -/
theorem evaluate_inverse (root : R → R) (f : R → R → κ → R) (g : Configuration R κ)
    (hroot : ∀ x, 0 ≤ x → x ≤ 1 → root x ≤ 1) (ha : 0 ≤ g.accuracy) (n m : Nat)
    (calls : List (Call R κ)) (p : R) (k : κ) (v : R)
    (h : (solve (inverseArcLength root f g) n m p k (after (inverseArcLength root f g) n m calls)).2 = .ok v) :
    Reaches (fun t x => f t x k) (Forward g.maxStep) g.imageLowerBound g.parameterLowerBound p v ∧
    (p = g.imageLowerBound → v = g.parameterLowerBound) := by
  have hr := evaluate_reaches (inverseArcLength root f g) hroot ha n m calls p k v h
  refine ⟨hr, fun hp => ?_⟩
  refine (hr.induct (P := fun t x => g.imageLowerBound ≤ t ∧ (t = g.imageLowerBound → x = g.parameterLowerBound))
    ⟨le_refl _, fun _ => rfl⟩ fun t x d hP hd => ?_).2 hp
  have h1 := hd.1
  have h2 := hP.1
  exact ⟨by linarith, fun he => absurd he (by linarith : g.imageLowerBound < t + d).ne'⟩

/-- C101. Bounds of the right hand side bound the value: it lies between the lower and the upper bound times the length of
the interval, above the initial value.  In particular the value is exact for a constant. -/
theorem evaluate_bounds (c : Setup R κ) (hroot : ∀ x, 0 ≤ x → x ≤ 1 → c.root x ≤ 1) (ha : 0 ≤ c.accuracy) (n m : Nat)
    (calls : List (Call R κ)) (p : R) (k : κ) (v lo hi : R)
    (hf : ∀ t x, c.t0 ≤ t → t ≤ p → lo ≤ c.f t x k ∧ c.f t x k ≤ hi)
    (h : (solve c n m p k (after c n m calls)).2 = .ok v) :
    c.x0 + lo * (p - c.t0) ≤ v ∧ v ≤ c.x0 + hi * (p - c.t0) := by
  obtain ⟨h1, h2⟩ := (evaluate_reaches c hroot ha n m calls p k v h).bounds hf
  constructor <;> linarith

end

section
variable {κ : Type} [DecidableEq κ]

/-- C101. For an integrand with four continuous derivatives, the fourth one bounded by `M`, the arc length is within
`M (p - p0) h^4 / 2880` of the integral, where `h` is the maximum step size. -/
theorem evaluate_error (root : ℝ → ℝ) (f : ℝ → κ → ℝ) (g : Configuration ℝ κ)
    (hroot : ∀ x, 0 ≤ x → x ≤ 1 → root x ≤ 1) (ha : 0 ≤ g.accuracy) (n m : Nat)
    (calls : List (Call ℝ κ)) (p : ℝ) (k : κ) (v M : ℝ) (hf : ContDiff ℝ 4 (f · k))
    (hM : ∀ t ∈ Set.Icc g.parameterLowerBound p, |iteratedDeriv 4 (f · k) t| ≤ M)
    (h : (solve (arcLength root f g) n m p k (after (arcLength root f g) n m calls)).2 = .ok v) :
    |v - ∫ t in g.parameterLowerBound..p, f t k| ≤ M * (p - g.parameterLowerBound) * g.maxStep ^ 4 / 2880 := by
  obtain ⟨ts, h1, h2⟩ := evaluate_simpson root f g hroot ha n m calls p k v h
  rw [h2]
  exact (simpson_error hf ts _ h1 hM).2

/-- The cube root of the code is one of the roots that the theorems allow. -/
example : ∀ x : ℝ, 0 ≤ x → x ≤ 1 → x ^ (1 / 3 : ℝ) ≤ 1 := fun _ h0 h1 => Real.rpow_le_one h0 h1 (by norm_num)

end

/-- A substitute for the cube root that can be computed with. -/
def stepRoot (x : ℚ) : ℚ := if x ≤ 1 then 1 / 2 else 2

theorem stepRoot_ok : ∀ x, 0 ≤ x → x ≤ 1 → stepRoot x ≤ 1 := by
  intro x _ h
  unfold stepRoot; rw [if_pos h]; norm_num

/-- The integral of a square, `Evaluate(2)` after `Evaluate(1)`. -/
def squareSetup : Setup ℚ Unit := arcLength stepRoot (fun t _ => t ^ 2) ⟨0, 0, (), 1, 1, 1 / 10⟩

example : (solve squareSetup 9 9 2 () (after squareSetup 9 9 [.evaluate 1 ()])).2 = .ok (8 / 3) := by decide +kernel

example : Reaches (fun t _ => t ^ 2) (Forward 1) (0 : ℚ) 0 2 (8 / 3) :=
  evaluate_reaches squareSetup stepRoot_ok (by decide +kernel) 9 9 [.evaluate 1 ()] 2 () _ (by decide +kernel)

/-- An inverse: x' = 1 + x / 2 from the image 1 and the parameter 0. -/
def inverseSetup : Setup ℚ Unit := inverseArcLength stepRoot (fun _ x _ => 1 + x / 2) ⟨0, 1, (), 1 / 2, 1 / 2, 1 / 10⟩

example : (solve inverseSetup 9 9 2 () (after inverseSetup 9 9 [.evaluate 0 (), .evaluate (3 / 2) ()])).2 = .ok (95593 / 73728) := by
  decide +kernel

example : Reaches (fun _ x => 1 + x / 2) (Forward (1 / 2)) (1 : ℚ) 0 2 (95593 / 73728) :=
  (evaluate_inverse stepRoot (fun _ x (_ : Unit) => 1 + x / 2) ⟨0, 1, (), 1 / 2, 1 / 2, 1 / 10⟩ stepRoot_ok (by decide +kernel) 9 9
    [.evaluate 0 (), .evaluate (3 / 2) ()] 2 () _ (by decide +kernel)).1

/-! C102. -/

section
variable {R κ : Type} [Field R] [LinearOrder R] [IsStrictOrderedRing R] [DecidableEq κ] [Archimedean R]

/-- C102. With a positive maximum step size and an accuracy that is not negative every call of `Evaluate` comes to an
end, after any calls: with enough attempts and steps the result is the same and not that they were used up. -/
theorem evaluate_terminates (c : Setup R κ) (hroot : ∀ x, 0 ≤ x → x ≤ 1 → c.root x ≤ 1) (ha : 0 ≤ c.accuracy)
    (hmax : 0 < c.maxStep) (calls : List (Call R κ)) (p : R) (k : κ) :
    ∃ N r, r ≠ .error .depth ∧ ∀ n m, N ≤ n → N ≤ m → (solve c n m p k (after c n m calls)).2 = r := by
  have hu : Usable c := ⟨hroot, ha⟩
  obtain ⟨N, s, hi, hs⟩ := after_settles hu hmax calls
  obtain ⟨N', r, h1, h2⟩ := solve_returns hu hmax p k s hi
  exact ⟨max N N', r.2, h1, fun n m hn hm => by
    rw [hs n m (by omega) (by omega), h2 n m (by omega) (by omega)]⟩

/-- C102. So does the making of a function. -/
theorem function_terminates (c : Setup R κ) (hroot : ∀ x, 0 ≤ x → x ≤ 1 → c.root x ≤ 1) (ha : 0 ≤ c.accuracy)
    (hmax : 0 < c.maxStep) (calls : List (Call R κ)) (p0 p1 : R) (k : κ) (tolerance epsilon : R) :
    ∃ N r, r ≠ .error .depth ∧
      ∀ n m, N ≤ n → N ≤ m → (intervalFunction c n m p0 p1 k tolerance epsilon (after c n m calls)).2 = r := by
  have hu : Usable c := ⟨hroot, ha⟩
  obtain ⟨N, s, hi, hs⟩ := after_settles hu hmax calls
  obtain ⟨N', r, h1, h2⟩ := intervalFunction_returns hu hmax p0 p1 k tolerance epsilon s
  exact ⟨max N N', r.2, h1, fun n m hn hm => by
    rw [hs n m (by omega) (by omega), h2 n m (by omega) (by omega)]⟩

/-- C102. `Evaluate` returns a value for every point that is not below the lower bound, after any other such calls, if
the initial step size is neither negative nor above the maximum step size, which is positive, and the right hand side is
smooth where it is integrated. -/
theorem evaluate_returns (c : Setup R κ) (hroot : ∀ x, 0 ≤ x → x ≤ 1 → c.root x ≤ 1) (ha : 0 ≤ c.accuracy)
    (h0 : 0 ≤ c.initialStep) (h1 : c.initialStep ≤ c.maxStep) (hmax : 0 < c.maxStep) (calls : List (R × κ)) (p : R) (k : κ)
    (hc : ∀ q ∈ (p, k) :: calls, c.t0 ≤ q.1 ∧ Smooth (fun t x => c.f t x q.2) (min c.accuracy (1 / 10)) c.t0 q.1) :
    ∃ v N, ∀ n m, N ≤ n → N ≤ m →
      (solve c n m p k (after c n m (calls.map fun q => .evaluate q.1 q.2))).2 = .ok v := by
  have hu : Usable c := ⟨hroot, ha⟩
  have hv : Accepted c := ⟨h0, h1⟩
  obtain ⟨N, r, e1, e2⟩ := evaluate_terminates c hroot ha hmax (calls.map fun q => .evaluate q.1 q.2) p k
  have key : ∀ n m, Inv c (after c n m (calls.map fun q => .evaluate q.1 q.2)) ∧
      (after c n m (calls.map fun q => .evaluate q.1 q.2)).dense = none := by
    intro n m
    refine after_induct c n m (P := fun s => Inv c s ∧ s.dense = none) ⟨inv_fresh c, rfl⟩ _ ?_
    rintro a hm s ⟨hi, hd⟩
    refine ⟨call_inv hu n m a hi, ?_⟩
    obtain ⟨q, hq, rfl⟩ := List.mem_map.1 hm
    obtain ⟨b1, b2⟩ := hc q (List.mem_cons_of_mem _ hq)
    exact (solve_no_throw hu hv n m q.2 hi hd b1 (tame_of_smooth b2)).1
  obtain ⟨b1, b2⟩ := hc (p, k) List.mem_cons_self
  have hno := (solve_no_throw hu hv N N k (key N N).1 (key N N).2 b1 (tame_of_smooth b2)).2
  rw [e2 N N (le_refl _) (le_refl _)] at hno
  match r with
  | .error .depth => exact absurd rfl e1
  | .error (.err e) => exact absurd rfl (hno e)
  | .ok v => exact ⟨v, N, e2⟩

end

section
variable {R κ : Type} [Field R] [LinearOrder R] [IsStrictOrderedRing R] [DecidableEq κ]

/-- C102. A right hand side is smooth if it is bounded by `B` and `10^-13 B max(1, |a|, |b|)` is not above the
accuracy. -/
theorem smooth_of_bounded (f : R → R → R) (accuracy a b B : R) (hf : ∀ t x, a ≤ t → t ≤ b → |f t x| ≤ B)
    (h : 1 / 10000000000000 * B * max 1 (max |a| |b|) ≤ accuracy) : Smooth f accuracy a b := by
  intro t x s h1 h2 h3 h4
  have hB : 0 ≤ B := (abs_nonneg _).trans (hf t x h1 (by linarith))
  have ht : |t + s| ≤ max |a| |b| := abs_le_of_between (by linarith) h2
  have hs : s ≤ 1 / 10000000000000 * max 1 (max |a| |b|) :=
    h4.le.trans (mul_le_mul_of_nonneg_left (max_le_max (le_refl _) ht) (by norm_num))
  refine le_trans ?_ h
  simp only [errorEstimate]
  have e1 := abs_le.1 (hf t x h1 (by linarith))
  have e2 := abs_le.1 (hf (t + s / 2) (x + s / 2 * f t x) (by linarith) (by linarith))
  have e3 := abs_le.1 (hf (t + s) (x - s * f t x + 2 * s * f (t + s / 2) (x + s / 2 * f t x)) (by linarith) (by linarith))
  generalize f (t + s) (x - s * f t x + 2 * s * f (t + s / 2) (x + s / 2 * f t x)) = k3 at e3 ⊢
  generalize f (t + s / 2) (x + s / 2 * f t x) = k2 at e2 ⊢
  generalize f t x = k1 at e1 ⊢
  have hk : |k1 - 2 * k2 + k3| ≤ 4 * B := by rw [abs_le]; constructor <;> linarith [e1.1, e1.2, e2.1, e2.2, e3.1, e3.2]
  rw [abs_div, abs_mul, abs_of_pos h3, show |(6 : R)| = 6 from abs_of_pos (by norm_num)]
  have hx : s * |k1 - 2 * k2 + k3| ≤ 1 / 10000000000000 * max 1 (max |a| |b|) * (4 * B) :=
    mul_le_mul hs hk (abs_nonneg _) (h3.le.trans hs)
  have hn : 0 ≤ 1 / 10000000000000 * B * max 1 (max |a| |b|) :=
    mul_nonneg (mul_nonneg (by norm_num) hB) (zero_le_one.trans (le_max_left _ _))
  rw [div_le_iff₀ (by norm_num)]
  linarith

/-- C102. Points below the lower bound are refused without a change of the integrator. -/
theorem evaluate_below (c : Setup R κ) (n m : Nat) (s : State R κ) (p : R) (k : κ) (h : p < c.t0) :
    solve c n m p k s = (s, .error (.err .throws)) := by
  unfold solve; rw [if_pos h]

/-- C102. An initial step size above the maximum step size, or a negative one, makes every `Evaluate` throw, after any
calls. -/
theorem evaluate_unusable (c : Setup R κ) (hroot : ∀ x, 0 ≤ x → x ≤ 1 → c.root x ≤ 1) (ha : 0 ≤ c.accuracy)
    (h : ¬ (0 ≤ c.initialStep ∧ c.initialStep ≤ c.maxStep)) (n m : Nat) (calls : List (Call R κ)) (p : R) (k : κ) :
    (solve c n m p k (after c n m calls)).2 = .error (.err .throws) := by
  have hu : Usable c := ⟨hroot, ha⟩
  have hi := after_inv hu n m calls
  generalize after c n m calls = s at hi ⊢
  by_cases h0 : c.t0 ≤ p
  · obtain ⟨p1, -⟩ := prepared c p k s hi h0
    unfold solve
    simp only [if_neg (not_lt.2 h0)]
    generalize (if k ≠ s.current ∨ p < s.time then reset c k s else s) = s1 at p1 ⊢
    have hin : s1.initialized = false := by
      cases h' : s1.initialized
      · rfl
      · exact absurd ⟨(p1.init h').2.1, (p1.init h').2.2⟩ h
    simp only [if_pos hin, setUp_invalid (fun hv => h ⟨hv.initial, hv.max⟩)]
  · rw [evaluate_below c n m s p k (not_le.1 h0)]

/-- C102 fails for a maximum step size of zero, which is the one of a default configuration: `Evaluate` never returns for
any point above the lower bound, after any calls of `Evaluate`, whatever is integrated. -/
theorem evaluate_never_returns (c : Setup R κ) (hroot : ∀ x, 0 ≤ x → x ≤ 1 → c.root x ≤ 1) (ha : 0 ≤ c.accuracy)
    (h0 : c.initialStep = 0) (hmax : c.maxStep = 0) (calls : List (R × κ)) (n m : Nat) (p : R) (k : κ) (hp : c.t0 < p) :
    (solve c n m p k (after c n m (calls.map fun q => .evaluate q.1 q.2))).2 = .error .depth := by
  have hu : Usable c := ⟨hroot, ha⟩
  have hv : Accepted c := ⟨h0.ge, by rw [h0, hmax]⟩
  have one : ∀ (tf : R) (s : State R κ), Inv c s → s.initialized = true → s.time = c.t0 → c.t0 ≤ tf → s.dense = none →
      ∀ m, (integrateTo c n tf m s).1.time = c.t0 ∧ (integrateTo c n tf m s).1.dense = none ∧
        (c.t0 < tf → (integrateTo c n tf m s).2 = .error .depth) := by
    intro tf s hi hin ht htf hd m
    induction m generalizing s with
    | zero => exact ⟨ht, hd, fun _ => rfl⟩
    | succ m ih =>
      obtain ⟨h, hm, -⟩ := integrateTo_step hu n tf s hi hin (ht.trans_le htf)
      have hz : h = 0 := le_antisymm (by rw [← hmax]; exact hm.max) hm.nonneg
      obtain ⟨q1, q2⟩ := integrateNoFurther_no_throw hu n s hi hin (min tf (s.time + c.maxStep))
        (le_min (ht.trans_le htf) (by rw [hmax, add_zero])) s.time s.time hd
        (fun t x h' a1 a2 a3 => by linarith) (le_refl _) (by rw [hmax, add_zero]; exact min_le_right _ _)
      unfold integrateTo
      generalize integrateNoFurther c n s (min tf (s.time + c.maxStep)) = r at hm q1 q2 ⊢
      obtain ⟨s', r⟩ := r
      dsimp only at hm q1 q2
      have ht' : s'.time = c.t0 := by rw [hm.time, hz, add_zero, ht]
      match r with
      | .error .depth => exact ⟨ht', q1, fun _ => rfl⟩
      | .error (.err e) => exact absurd rfl (q2 e)
      | .ok () =>
        dsimp only
        split
        · exact ih s' (hi.moved hm) (hm.frame.initialized.trans hin) ht' q1
        · rename_i hlt
          exact ⟨ht', q1, fun hlt' => absurd (ht'.trans_lt hlt') hlt⟩
  have state : Inv c (after c n m (calls.map fun q => .evaluate q.1 q.2)) ∧
      (after c n m (calls.map fun q => .evaluate q.1 q.2)).dense = none := by
    refine after_induct c n m (P := fun s => Inv c s ∧ s.dense = none) ⟨inv_fresh c, rfl⟩ _ ?_
    rintro a hm s ⟨hi, hd⟩
    refine ⟨call_inv hu n m a hi, ?_⟩
    obtain ⟨q, hq, rfl⟩ := List.mem_map.1 hm
    show (solve c n m q.1 q.2 s).1.dense = none
    by_cases hq0 : c.t0 ≤ q.1
    · obtain ⟨s2, a1, a2, a3, a4, a5, a6, -, a9⟩ := solve_eq hi hv hq0 q.2
      have ht : s2.time = c.t0 := by
        have := a1.reach
        rw [hmax] at this
        exact this.induct (P := fun t _ => t = c.t0) rfl fun t x h _ hh => by linarith [hh.1, hh.2]
      rw [a9]
      have := (one q.1 s2 a1 a2 ht hq0 (a6 hd) m).2.1
      generalize integrateTo c n q.1 m s2 = r at this
      obtain ⟨s3, r⟩ := r
      cases r <;> exact this
    · rw [evaluate_below c n m s q.1 q.2 (not_le.1 hq0)]; exact hd
  obtain ⟨hi, hd⟩ := state
  obtain ⟨s2, a1, a2, a3, a4, a5, a6, -, a9⟩ := solve_eq hi hv hp.le k
  have ht : s2.time = c.t0 := by
    have := a1.reach
    rw [hmax] at this
    exact this.induct (P := fun t _ => t = c.t0) rfl fun t x h _ hh => by linarith [hh.1, hh.2]
  rw [a9, finish_depth]
  exact (one p s2 a1 a2 ht hp.le (a6 hd) m).2.2 hp

end

/-- The hypotheses of `evaluate_returns` for the square up to the point 2, after a call for the point 1. -/
example : ∀ q ∈ ((2 : ℚ), ()) :: [((1 : ℚ), ())], squareSetup.t0 ≤ q.1 ∧
    Smooth (fun t x => squareSetup.f t x q.2) (min squareSetup.accuracy (1 / 10)) squareSetup.t0 q.1 := by
  have key : ∀ b : ℚ, 0 ≤ b → b ≤ 2 → Smooth (fun t x => squareSetup.f t x ()) (min squareSetup.accuracy (1 / 10)) squareSetup.t0 b := by
    intro b h0 hb
    refine smooth_of_bounded _ _ _ _ 4 (fun t x h1 h2 => ?_) ?_
    · have h1' : (0 : ℚ) ≤ t := h1
      show |t ^ 2| ≤ 4
      rw [abs_of_nonneg (by positivity)]; nlinarith
    · show 1 / 10000000000000 * 4 * max 1 (max |(0 : ℚ)| |b|) ≤ min (1 / 10) (1 / 10)
      rw [abs_zero, abs_of_nonneg h0, min_self]
      have : max 1 (max 0 b) ≤ 2 := max_le (by norm_num) (max_le (by norm_num) hb)
      linarith
  intro q hq
  simp only [List.mem_cons, List.not_mem_nil, or_false] at hq
  rcases hq with rfl | rfl
  · exact ⟨by decide +kernel, key 2 (by norm_num) (by norm_num)⟩
  · exact ⟨by decide +kernel, key 1 (by norm_num) (by norm_num)⟩

/-- The default configuration: everything is zero. -/
def defaultSetup : Setup ℚ Unit := arcLength stepRoot (fun _ _ => 1) ⟨0, 0, (), 0, 0, 0⟩

example : (solve defaultSetup 30 30 1 () (after defaultSetup 30 30 [.evaluate 0 ()])).2 = .error .depth :=
  evaluate_never_returns defaultSetup stepRoot_ok (by decide +kernel) rfl rfl [(0, ())] 30 30 1 () (by decide +kernel)

example : (solve defaultSetup 30 30 0 () (fresh defaultSetup)).2 = .ok 0 := by decide +kernel

/-! C103. -/

section
variable {R κ : Type} [Field R] [LinearOrder R] [IsStrictOrderedRing R] [DecidableEq κ]

/-- C103. Between two calls that returned values for the same parameters, the second one for a point that is not
smaller, the value grows within the bounds of the right hand side there: it does not fall for a right hand side that is
not negative. -/
theorem evaluate_increment (c : Setup R κ) (hroot : ∀ x, 0 ≤ x → x ≤ 1 → c.root x ≤ 1) (ha : 0 ≤ c.accuracy) (n m : Nat)
    (calls : List (Call R κ)) (p q : R) (k : κ) (v w lo hi : R) (hpq : p ≤ q)
    (hf : ∀ t x, p ≤ t → t ≤ q → lo ≤ c.f t x k ∧ c.f t x k ≤ hi)
    (h1 : (solve c n m p k (after c n m calls)).2 = .ok v)
    (h2 : (solve c n m q k (after c n m (calls ++ [.evaluate p k]))).2 = .ok w) :
    v + lo * (q - p) ≤ w ∧ w ≤ v + hi * (q - p) := by
  have hu : Usable c := ⟨hroot, ha⟩
  obtain ⟨b1, b2, b3, b4, b5⟩ := evaluate_state hu n m (after_inv hu n m calls) h1
  rw [after_snoc] at h2
  change (solve c n m q k (solve c n m p k (after c n m calls)).1).2 = .ok w at h2
  generalize (solve c n m p k (after c n m calls)).1 = s at b1 b2 b3 b4 b5 h2
  obtain ⟨i1, i2⟩ := b1.init b5
  obtain ⟨s2, a1, a2, a3, a4, -, -, a8, a9⟩ := solve_eq b1 ⟨i2.1, i2.2⟩ (b1.reach.le.trans (b2.trans_le hpq)) k
  obtain ⟨e1, e2⟩ := a8 (b4.symm.trans b1.same) (b2.trans_le hpq)
  rw [a9] at h2
  have hok : (integrateTo c n q m s2).2 = .ok () := by
    generalize integrateTo c n q m s2 = r at h2
    obtain ⟨s3, r⟩ := r
    cases r with
    | error e => cases h2
    | ok u => rfl
  have hr := integrateTo_from hu n m q s2 a1 a2 a4 hok
  have hw : (integrateTo c n q m s2).1.state = w := by
    generalize integrateTo c n q m s2 = r at h2 hok
    obtain ⟨s3, r⟩ := r
    dsimp only at hok
    subst hok
    exact Except.ok.inj h2
  rw [hw, a3, e1, b2, e2, b3] at hr
  obtain ⟨c1, c2⟩ := hr.bounds hf
  constructor <;> linarith

/-- C103. `Evaluate` again for the same point and parameters gives the same value again, if no making of a function has
thrown before. -/
theorem evaluate_again (c : Setup R κ) (hroot : ∀ x, 0 ≤ x → x ≤ 1 → c.root x ≤ 1) (ha : 0 ≤ c.accuracy) (n m : Nat)
    (hn : 1 ≤ n) (hm : 1 ≤ m) (calls : List (Call R κ)) (p : R) (k : κ) (v : R)
    (hc : ∀ pre p0 p1 j tolerance epsilon post, calls = pre ++ .function p0 p1 j tolerance epsilon :: post →
      ∃ g, (intervalFunction c n m p0 p1 j tolerance epsilon (after c n m pre)).2 = .ok g)
    (h : (solve c n m p k (after c n m calls)).2 = .ok v) :
    (solve c n m p k (after c n m (calls ++ [.evaluate p k]))).2 = .ok v := by
  have hu : Usable c := ⟨hroot, ha⟩
  obtain ⟨n, rfl⟩ : ∃ n', n = n' + 1 := ⟨n - 1, by omega⟩
  obtain ⟨m, rfl⟩ : ∃ m', m = m' + 1 := ⟨m - 1, by omega⟩
  obtain ⟨b1, b2, b3, b4, b5⟩ := evaluate_state hu (n + 1) (m + 1) (after_inv hu (n + 1) (m + 1) calls) h
  have hd := solve_off c (n + 1) (m + 1) p k _ (after_off hu (n + 1) (m + 1) calls hc)
  rw [after_snoc]
  change (solve c (n + 1) (m + 1) p k (solve c (n + 1) (m + 1) p k (after c (n + 1) (m + 1) calls)).1).2 = .ok v
  generalize (solve c (n + 1) (m + 1) p k (after c (n + 1) (m + 1) calls)).1 = s at b1 b2 b3 b4 b5 hd ⊢
  have := solve_same hu n m s b1 b5 hd
  rw [b2, b3, b4] at this
  exact this

/-- C103. After a call of `Evaluate` that returned, `Evaluate` for other parameters or for a smaller point does what it
does in a new integrator. -/
theorem evaluate_fresh (c : Setup R κ) (hroot : ∀ x, 0 ≤ x → x ≤ 1 → c.root x ≤ 1) (ha : 0 ≤ c.accuracy) (n m : Nat)
    (calls : List (Call R κ)) (p q : R) (k j : κ) (v : R) (hne : k ≠ j ∨ p < q)
    (h : (solve c n m q j (after c n m calls)).2 = .ok v) (hp : c.t0 ≤ p) :
    solve c n m p k (after c n m (calls ++ [.evaluate q j])) = solve c n m p k (fresh c) := by
  have hu : Usable c := ⟨hroot, ha⟩
  obtain ⟨b1, b2, b3, b4, b5⟩ := evaluate_state hu n m (after_inv hu n m calls) h
  rw [after_snoc]
  change solve c n m p k (solve c n m q j (after c n m calls)).1 = _
  generalize (solve c n m q j (after c n m calls)).1 = s at b1 b2 b3 b4 b5 ⊢
  have e1 : (if k ≠ s.current ∨ p < s.time then reset c k s else s) = reset c k (fresh c) := by
    rw [if_pos (by rw [← b1.same, b4, b2]; exact hne)]; rfl
  have e2 : (if k ≠ (fresh c).current ∨ p < (fresh c).time then reset c k (fresh c) else fresh c) = reset c k (fresh c) := by
    by_cases hk : k = c.k0
    · rw [if_neg (by show ¬ (k ≠ c.k0 ∨ p < c.t0); simp [hk, hp]), hk]; rfl
    · rw [if_pos (.inl hk)]
  unfold solve
  simp only [if_neg (not_lt.2 hp), e1, e2]

end

/-- A small tent above 1/2. -/
def tentSetup : Setup ℚ Unit := arcLength stepRoot (fun t _ => max 0 (3 / 10 - 10 * |t - 1 / 2|)) ⟨0, 0, (), 2, 2, 1 / 10⟩

/-- C103 fails without the condition on the earlier call: the value for the point 2 depends on whether the point 1 has been
asked for before, and the values of two points can have the wrong order although the integrand is not negative. -/
theorem evaluate_history :
    (solve tentSetup 9 9 2 () (fresh tentSetup)).2 = .ok 0 ∧
    (solve tentSetup 9 9 2 () (after tentSetup 9 9 [.evaluate 1 ()])).2 = .ok (1 / 5) ∧
    (solve tentSetup 9 9 1 () (after tentSetup 9 9 [.evaluate 2 ()])).2 = .ok (1 / 5) := by decide +kernel

/-- `evaluate_increment` between the points 1 and 2 of the square. -/
example : (1 / 3 : ℚ) + 1 * (2 - 1) ≤ 8 / 3 ∧ (8 / 3 : ℚ) ≤ 1 / 3 + 4 * (2 - 1) :=
  evaluate_increment squareSetup stepRoot_ok (by decide +kernel) 9 9 [] 1 2 () _ _ _ _ (by norm_num)
    (fun t _ h1 h2 => by
      constructor
      · show 1 ≤ t ^ 2; nlinarith
      · show t ^ 2 ≤ 4; nlinarith) (by decide +kernel) (by decide +kernel)

example : (solve tentSetup 9 9 1 () (after tentSetup 9 9 [.evaluate 2 (), .evaluate 1 ()])).2 = .ok (1 / 5) := by
  refine evaluate_again tentSetup stepRoot_ok (by decide +kernel) 9 9 (by decide) (by decide) [.evaluate 2 ()] 1 () _ ?_ (by decide +kernel)
  intro pre p0 p1 j tolerance epsilon post h
  cases pre with
  | nil => simp at h
  | cons b pre => simp at h

/-! C104. -/

section
variable {R κ : Type} [Field R] [LinearOrder R] [IsStrictOrderedRing R] [DecidableEq κ]

/-- C104. If no earlier call has thrown, every step to the value of `Evaluate` has an error estimate that is not above the
target accuracy (nor above 1/10), or is about as short as the double precision of the times allows. -/
theorem evaluate_accurate_partial (c : Setup R κ) (hroot : ∀ x, 0 ≤ x → x ≤ 1 → c.root x ≤ 1) (ha : 0 ≤ c.accuracy) (n m : Nat)
    (calls : List (Call R κ)) (hc : ∀ pre a post, calls = pre ++ a :: post → Returned c n m (after c n m pre) a)
    (p : R) (k : κ) (v : R) (h : (solve c n m p k (after c n m calls)).2 = .ok v) :
    Reaches (fun t x => c.f t x k) (Accurate (fun t x => c.f t x k) c.maxStep (min c.accuracy (1 / 10))) c.t0 c.x0 p v := by
  have hu : Usable c := ⟨hroot, ha⟩
  obtain ⟨h1, h2⟩ := solve_spec hu n m p k _ (after_inv hu n m calls)
  obtain ⟨q1, q2, q3, -, -, -, q7⟩ := h2 v h
  have := q7 (after_acc hu n m calls hc)
  unfold Ode.Acc at this
  rw [q1, q2, q3] at this
  exact this

end

/-- A function that is zero except at the lower bound. -/
def jumpSetup : Setup ℚ Unit :=
  arcLength stepRoot (fun t _ => if t = 0 then 100000000000000000000 else 0) ⟨0, 0, (), 1, 1, 1 / 1000⟩

/-- C104 fails after an exception: the first `Evaluate` throws because no step is small enough, the context keeps the
rejected step, and the same call returns the wrong value that this step leads to, more than 200000 for a function that
is zero after the lower bound. -/
theorem evaluate_after_exception :
    (solve jumpSetup 60 9 1 () (fresh jumpSetup)).2 = .error (.err .throws) ∧
    ∃ v, (solve jumpSetup 60 9 1 () (after jumpSetup 60 9 [.evaluate 1 ()])).2 = .ok v ∧ 200000 < v := by
  refine ⟨by decide +kernel, ?_⟩
  have : (match (solve jumpSetup 60 9 1 () (after jumpSetup 60 9 [.evaluate 1 ()])).2 with
    | .ok v => decide (200000 < v) | .error _ => false) = true := by decide +kernel
  split at this
  · rename_i v hv; exact ⟨v, hv, by simpa using this⟩
  · cases this

/-- The hypotheses of `evaluate_accurate_partial` for the inverse. -/
example : Reaches (fun _ x => 1 + x / 2) (Accurate (fun _ x => 1 + x / 2) (1 / 2) (min (1 / 10) (1 / 10))) (1 : ℚ) 0 2 (95593 / 73728) := by
  refine evaluate_accurate_partial inverseSetup stepRoot_ok (by decide +kernel) 9 9 [.evaluate (3 / 2) ()] ?_ 2 () _ (by decide +kernel)
  intro pre a post h
  cases pre with
  | cons b pre => simp at h
  | nil =>
    simp only [List.nil_append, List.cons.injEq] at h
    rw [← h.1]
    have : (match (solve inverseSetup 9 9 (3 / 2) () (fresh inverseSetup)).2 with | .ok _ => true | .error _ => false) = true := by
      decide +kernel
    split at this
    · rename_i v hv; exact ⟨v, hv⟩
    · cases this

end Maliput.Props
