import Verif.Lemmas.Hermite
import Verif.Props.Integrator

set_option autoImplicit false

/-!
Properties of the functions that the integrators of arc length and inverse arc length make for an interval, with dense
output (C105, C106).
-/
namespace Maliput.Props

open Maliput Ode Ode.Spec
open Maliput.RouteGraph (Stop)

section
variable {R κ : Type} [Field R] [LinearOrder R] [IsStrictOrderedRing R] [DecidableEq κ]

/-- C105. The function that `IntegralFunction(p0, p1, k, tolerance)` or `InverseFunction` makes, after any calls, is a
piecewise cubic curve through the points of accurate steps from the lower bound to `p1`, with the slopes of the right hand
side at these points.  The function gives the value of the curve for points from `p0` to `p1`, that of the closest one of
them for other points closer to it than the tolerance, and throws for all others. -/
theorem function_curve (c : Setup R κ) (hroot : ∀ x, 0 ≤ x → x ≤ 1 → c.root x ≤ 1) (ha : 0 ≤ c.accuracy) (n m : Nat)
    (calls : List (Call R κ)) (p0 p1 : R) (k : κ) (tolerance epsilon : R) (g : R → Except Err R)
    (h : (intervalFunction c n m p0 p1 k tolerance epsilon (after c n m calls)).2 = .ok g) :
    ∃ knots curve v,
      Steps (fun t x => c.f t x k) (Accurate (fun t x => c.f t x k) c.maxStep (min c.accuracy (1 / 10))) c.t0 c.x0 knots ∧
      knots.getLast? = some (p1, v) ∧ 2 ≤ knots.length ∧
      Interpolates (fun t x => c.f t x k) knots curve ∧ c.t0 ≤ p0 ∧
      ∀ p, g p = if p0 ≤ p1 ∧ |max p0 (min p p1) - p| < tolerance then .ok (curve (max p0 (min p p1))) else .error .throws := by
  obtain ⟨knots, curve, h1, h2, h3⟩ := intervalFunction_curve ⟨hroot, ha⟩ n m p0 p1 k tolerance epsilon _ g h
  exact ⟨knots, curve, _, h1, h2, h3⟩

/-- C105. What the function gives between `p0` and `p1`, as one of the cubic polynomials. -/
theorem function_value (c : Setup R κ) (hroot : ∀ x, 0 ≤ x → x ≤ 1 → c.root x ≤ 1) (ha : 0 ≤ c.accuracy) (n m : Nat)
    (calls : List (Call R κ)) (p0 p1 : R) (k : κ) (tolerance epsilon : R) (g : R → Except Err R)
    (h : (intervalFunction c n m p0 p1 k tolerance epsilon (after c n m calls)).2 = .ok g) (ht : 0 < tolerance) (p : R)
    (h0 : p0 ≤ p) (h1 : p ≤ p1) :
    ∃ a b d : R × R, ∃ l r, d = (p1, d.2) ∧
      Steps (fun t x => c.f t x k) (Accurate (fun t x => c.f t x k) c.maxStep (min c.accuracy (1 / 10))) c.t0 c.x0 (l ++ a :: b :: r) ∧
      (l ++ a :: b :: r).getLast? = some d ∧ a.1 ≤ p ∧ p ≤ b.1 ∧ g p = .ok (cubic (fun t x => c.f t x k) a b p) := by
  obtain ⟨knots, curve, v, a1, a2, a3, a4, a5, a6⟩ := function_curve c hroot ha n m calls p0 p1 k tolerance epsilon g h
  obtain ⟨l, a, b, r, e, b1, b2⟩ := exists_between knots (c.t0, c.x0) (p1, v) a1.1 a2 a3 p (a5.trans h0) h1
  refine ⟨a, b, (p1, v), l, r, rfl, by rw [← e]; exact a1, by rw [← e]; exact a2, b1, b2, ?_⟩
  have hm : max p0 (min p p1) = p := by rw [min_eq_left h1, max_eq_right h0]
  rw [a6 p, hm, if_pos ⟨h0.trans h1, by rw [sub_self, abs_zero]; exact ht⟩, a4 l a b r e p b1 b2]

/-- C105. A function for an interval whose ends are in the wrong order, or with a tolerance that is not positive, always
throws. -/
theorem function_unusable (c : Setup R κ) (hroot : ∀ x, 0 ≤ x → x ≤ 1 → c.root x ≤ 1) (ha : 0 ≤ c.accuracy) (n m : Nat)
    (calls : List (Call R κ)) (p0 p1 : R) (k : κ) (tolerance epsilon : R) (g : R → Except Err R)
    (h : (intervalFunction c n m p0 p1 k tolerance epsilon (after c n m calls)).2 = .ok g) (hbad : p1 < p0 ∨ tolerance ≤ 0) (p : R) :
    g p = .error .throws := by
  obtain ⟨knots, curve, v, -, -, -, -, -, a6⟩ := function_curve c hroot ha n m calls p0 p1 k tolerance epsilon g h
  rw [a6, if_neg]
  rintro ⟨b1, b2⟩
  rcases hbad with hb | hb
  · exact absurd b1 (not_le.2 hb)
  · exact absurd ((abs_nonneg _).trans_lt b2) (not_lt.2 hb)

/-- C105. The function does not depend on the calls before it. -/
theorem function_fresh (c : Setup R κ) (n m : Nat) (calls : List (Call R κ)) (p0 p1 : R) (k : κ) (tolerance epsilon : R) :
    (intervalFunction c n m p0 p1 k tolerance epsilon (after c n m calls)).2 =
      (intervalFunction c n m p0 p1 k tolerance epsilon (fresh c)).2 := by
  unfold intervalFunction denseSolve
  by_cases h : p1 < c.t0
  · rw [if_pos h, if_pos h]
  · rw [if_neg h, if_neg h]; rfl

/-- C105. `Evaluate` for the end of the interval gives the value of the function there. -/
theorem function_then_evaluate (c : Setup R κ) (hroot : ∀ x, 0 ≤ x → x ≤ 1 → c.root x ≤ 1) (ha : 0 ≤ c.accuracy) (n m : Nat)
    (hn : 1 ≤ n) (hm : 1 ≤ m) (calls : List (Call R κ)) (p0 p1 : R) (k : κ) (tolerance epsilon : R) (g : R → Except Err R)
    (h : (intervalFunction c n m p0 p1 k tolerance epsilon (after c n m calls)).2 = .ok g) (ht : 0 < tolerance) (hp : p0 ≤ p1) :
    ∃ v, g p1 = .ok v ∧
      (solve c n m p1 k (after c n m (calls ++ [.function p0 p1 k tolerance epsilon]))).2 = .ok v := by
  have hu : Usable c := ⟨hroot, ha⟩
  obtain ⟨n, rfl⟩ : ∃ n', n = n' + 1 := ⟨n - 1, by omega⟩
  obtain ⟨m, rfl⟩ : ∃ m', m = m' + 1 := ⟨m - 1, by omega⟩
  obtain ⟨knots, curve, a1, a2, a3, a4, a5, a6⟩ := intervalFunction_curve hu (n + 1) (m + 1) p0 p1 k tolerance epsilon _ g h
  have hi := after_inv hu (n + 1) (m + 1) calls
  obtain ⟨d, hd, -⟩ := intervalFunction_ok h
  rw [after_snoc]
  change ∃ v, g p1 = .ok v ∧ (solve c (n + 1) (m + 1) p1 k (intervalFunction c (n + 1) (m + 1) p0 p1 k tolerance epsilon _).1).2 = .ok v
  rw [intervalFunction_fst] at a2 ⊢
  obtain ⟨e1, e2⟩ := denseSolve_spec hu (n + 1) (m + 1) p1 k _ hi
  obtain ⟨q1, q2, q3, q4, -⟩ := e2 d hd
  have hs := solve_same hu n m _ e1 q4 q3
  rw [q1, q2] at hs
  refine ⟨_, ?_, hs⟩
  obtain ⟨l, rfl⟩ := List.getLast?_eq_some_iff.1 a2
  have : l ≠ [] := by rintro rfl; simp at a3
  obtain ⟨l', x, rfl⟩ : ∃ l' x, l = l' ++ [x] := ⟨l.dropLast, l.getLast this, (List.dropLast_append_getLast this).symm⟩
  have hpair : l' ++ [x] ++ [(p1, (denseSolve c (n + 1) (m + 1) p1 k (after c (n + 1) (m + 1) calls)).1.state)] =
      l' ++ x :: (p1, (denseSolve c (n + 1) (m + 1) p1 k (after c (n + 1) (m + 1) calls)).1.state) :: [] := by simp
  obtain ⟨h', hh, hb⟩ := (hpair ▸ a1).pair
  have hlt : x.1 < p1 := by
    have h1 := congrArg Prod.fst hb
    dsimp only at h1
    have h2 := hh.1.1
    linarith
  have hmm : max p0 (min p1 p1) = p1 := by rw [min_self, max_eq_right hp]
  rw [a6 p1, hmm, if_pos ⟨hp, by rw [sub_self, abs_zero]; exact ht⟩, a4 l' x _ [] hpair p1 hlt.le (le_refl _)]
  exact congrArg _ (cubic_end _ x (p1, _) (by dsimp only; linarith))

/-- C105. The function is exact where the right hand side is a quadratic polynomial of the time. -/
theorem function_quadratic (c : Setup R κ) (hroot : ∀ x, 0 ≤ x → x ≤ 1 → c.root x ≤ 1) (ha : 0 ≤ c.accuracy) (n m : Nat)
    (calls : List (Call R κ)) (p0 p1 : R) (k : κ) (tolerance epsilon : R) (g : R → Except Err R) (c0 c1 c2 : R)
    (hf : ∀ t x, c.f t x k = c0 + c1 * t + c2 * t ^ 2)
    (h : (intervalFunction c n m p0 p1 k tolerance epsilon (after c n m calls)).2 = .ok g) (ht : 0 < tolerance) (p : R)
    (h0 : p0 ≤ p) (h1 : p ≤ p1) :
    g p = .ok (c.x0 + c0 * (p - c.t0) + c1 / 2 * (p ^ 2 - c.t0 ^ 2) + c2 / 3 * (p ^ 3 - c.t0 ^ 3)) := by
  obtain ⟨a, b, d, l, r, -, a1, -, a3, a4, a5⟩ := function_value c hroot ha n m calls p0 p1 k tolerance epsilon g h ht p h0 h1
  have key := Steps.induct (P := fun t x => x = c.x0 + (c0 * (t - c.t0) + c1 / 2 * (t ^ 2 - c.t0 ^ 2) + c2 / 3 * (t ^ 3 - c.t0 ^ 3)))
    (by simp) (fun t x h hx _ => by
      rw [kutta_quadratic hf, hx]; ring) _ a1
  obtain ⟨h', hh, hb⟩ := a1.pair
  have hpos : b.1 - a.1 ≠ 0 := by
    rw [hb]
    have := hh.1.1
    dsimp only; linarith
  have ka := key a (by simp)
  have kb := key b (by simp)
  rw [a5, cubic_exact _ a b hpos (c.x0 - c0 * c.t0 - c1 / 2 * c.t0 ^ 2 - c2 / 3 * c.t0 ^ 3) c0 (c1 / 2) (c2 / 3)
    (by rw [ka]; ring) (by rw [kb]; ring) (by rw [hf]; field_simp) (by rw [hf]; field_simp)]
  congr 1; ring

/-- C105. Where the right hand side is not negative and its largest value is at most three times its smallest one, the
function does not fall. -/
theorem function_monotone_partial (c : Setup R κ) (hroot : ∀ x, 0 ≤ x → x ≤ 1 → c.root x ≤ 1) (ha : 0 ≤ c.accuracy) (n m : Nat)
    (calls : List (Call R κ)) (p0 p1 : R) (k : κ) (tolerance epsilon : R) (g : R → Except Err R) (lo : R) (hlo : 0 ≤ lo)
    (hf : ∀ t x, c.t0 ≤ t → t ≤ p1 → lo ≤ c.f t x k ∧ c.f t x k ≤ 3 * lo)
    (h : (intervalFunction c n m p0 p1 k tolerance epsilon (after c n m calls)).2 = .ok g) (ht : 0 < tolerance) (p q : R)
    (h0 : p0 ≤ p) (hpq : p ≤ q) (h1 : q ≤ p1) : ∃ v w, g p = .ok v ∧ g q = .ok w ∧ v ≤ w := by
  obtain ⟨knots, curve, v, a1, a2, a3, a4, a5, a6⟩ := function_curve c hroot ha n m calls p0 p1 k tolerance epsilon g h
  have ge : ∀ u, p0 ≤ u → u ≤ p1 → g u = .ok (curve u) := by
    intro u b1 b2
    have hm : max p0 (min u p1) = u := by rw [min_eq_left b2, max_eq_right b1]
    rw [a6, hm, if_pos ⟨b1.trans b2, by rw [sub_self, abs_zero]; exact ht⟩]
  refine ⟨_, _, ge p h0 (hpq.trans h1), ge q (h0.trans hpq) h1, ?_⟩
  have order : ∀ l a b r, knots = l ++ a :: b :: r → a.1 < b.1 ∧ c.t0 ≤ a.1 ∧
      ∃ d, Forward c.maxStep a.1 a.2 d ∧ b = (a.1 + d, kutta (fun t x => c.f t x k) a.1 a.2 d) := by
    intro l a b r e
    have a1' := e ▸ a1
    obtain ⟨d, hd, hb⟩ := a1'.pair
    refine ⟨?_, ?_, d, hd.1, hb⟩
    · rw [hb]; have := hd.1.1; dsimp only; linarith
    · exact (a1'.upTo.mono fun _ _ _ h => h.1).le
  have ends : ∀ l a b r, knots = l ++ a :: b :: r → b.1 ≤ p1 := by
    intro l a b r e
    have e' : l ++ a :: b :: r = (l ++ [a]) ++ b :: r := by simp
    exact ((e.trans e') ▸ a1).le_last ((e.trans e') ▸ a2) fun _ _ _ h => h.1.1
  refine glue knots (c.t0, c.x0) (p1, v) a1.1 a2 ?_ (fun l a b r e => (order l a b r e).1.le) p q (a5.trans h0) hpq h1
  intro l a b r e s t b1 b2 b3
  obtain ⟨o1, o2, d, hd, hb⟩ := order l a b r e
  have o3 := ends l a b r e
  have hbd : b.1 = a.1 + d := by rw [hb]
  rw [a4 l a b r e s b1 (b2.trans b3), a4 l a b r e t (b1.trans b2) b3]
  have k1 := (kutta_bounds (b := c.maxStep) (x := a.2) (fun u y hu1 hu2 => hf u y (o2.trans hu1) (hu2.trans (by linarith))) hd).1
  have hb2 : b.2 = kutta (fun t x => c.f t x k) a.1 a.2 d := by rw [hb]
  have fa := hf a.1 a.2 o2 (o1.le.trans o3)
  have fb := hf b.1 b.2 (o2.trans o1.le) o3
  have e1 := mul_le_mul_of_nonneg_right fa.2 (show 0 ≤ b.1 - a.1 by linarith)
  have e2 := mul_le_mul_of_nonneg_right fb.2 (show 0 ≤ b.1 - a.1 by linarith)
  have e3 : lo * (b.1 - a.1) ≤ b.2 - a.2 := by rw [hb2, show b.1 - a.1 = d by linarith]; exact k1
  exact cubic_monotone _ a b (by linarith) (hlo.trans fa.1) (hlo.trans fb.1) (by linarith) (by linarith) b1 b2 b3

/-- C106. Making a function for points from the lower bound on only throws, for smooth right hand sides and usable step
sizes, if a step ends less than `kEpsilonTime` before the end of the interval. -/
theorem function_sliver_partial (c : Setup R κ) (hroot : ∀ x, 0 ≤ x → x ≤ 1 → c.root x ≤ 1) (ha : 0 ≤ c.accuracy) (n m : Nat)
    (hi : 1 / 1000000000000000 ≤ c.initialStep) (hx : c.initialStep ≤ c.maxStep) (calls : List (Call R κ)) (p0 p1 : R) (k : κ)
    (tolerance epsilon : R) (he : 0 ≤ epsilon) (h0 : c.t0 ≤ p0) (h1 : c.t0 ≤ p1)
    (hs : Smooth (fun t x => c.f t x k) (min c.accuracy (1 / 10)) c.t0 p1) (e : Err)
    (h : (intervalFunction c n m p0 p1 k tolerance epsilon (after c n m calls)).2 = .error (.err e)) :
    ∃ t x, Reaches (fun t x => c.f t x k) (Accurate (fun t x => c.f t x k) c.maxStep (min c.accuracy (1 / 10))) c.t0 c.x0 t x ∧
      t ≤ p1 ∧ p1 < t + 1 / 2 ^ 52 := by
  have hu : Usable c := ⟨hroot, ha⟩
  have hpos : (0 : R) < 1 / 1000000000000000 := by norm_num
  have hv : Accepted c := ⟨(hpos.trans_le hi).le, hx⟩
  cases hd : (denseSolve c n m p1 k (after c n m calls)).2 with
  | error e' =>
    have hee : e' = .err e := by
      unfold intervalFunction at h
      generalize denseSolve c n m p1 k (after c n m calls) = r at h hd
      obtain ⟨s', r⟩ := r
      dsimp only at hd
      subst hd
      simpa using h
    subst hee
    have hei : Piecewise.epsilonTime ≤ 95 / 100 * c.initialStep := by
      have : (Piecewise.epsilonTime : R) ≤ 95 / 100 * (1 / 1000000000000000) := by unfold Piecewise.epsilonTime; norm_num
      linarith
    obtain ⟨t, x, r1, r2, r3⟩ := denseSolve_throws hu hv n m h1 k _ e hd (tame_of_smooth hs) hei
    refine ⟨t, x, r1, r2, ?_⟩
    have : (Piecewise.epsilonTime : R) = 1 / 2 ^ 52 := by unfold Piecewise.epsilonTime; norm_num
    rw [this] at r3
    linarith
  | ok d =>
    exfalso
    obtain ⟨l, q1, q2, q3, q4, rfl⟩ := denseSolve_dense hu n m p1 k _ d hd
    have hval := hermite_valid c k q3 q4
    have hf : Piecewise.Spec.first (hermite c k l) = c.t0 := by
      unfold Piecewise.Spec.first; rw [hermite_breaks]
      have := q1.1
      cases l with
      | nil => cases this
      | cons x l => cases this; rfl
    have hl : Piecewise.Spec.last (hermite c k l) = p1 := by
      obtain ⟨l', rfl⟩ := List.getLast?_eq_some_iff.1 q2
      exact last_hermite c k l' _
    have hck := (checkTimes_ok hval (p0 := p0) (p1 := p1) (epsilon := epsilon)).2 ⟨by rw [hf]; exact h0, by rw [hl]; linarith⟩
    unfold intervalFunction at h
    generalize denseSolve c n m p1 k (after c n m calls) = r at h hd
    obtain ⟨s', r⟩ := r
    dsimp only at hd
    subst hd
    dsimp only at h
    rw [hck] at h
    cases h

/-- C106. A function that would begin before the lower bound is refused. -/
theorem function_before (c : Setup R κ) (hroot : ∀ x, 0 ≤ x → x ≤ 1 → c.root x ≤ 1) (ha : 0 ≤ c.accuracy) (n m : Nat)
    (calls : List (Call R κ)) (p0 p1 : R) (k : κ) (tolerance epsilon : R) (h : p0 < c.t0) (g : R → Except Err R) :
    (intervalFunction c n m p0 p1 k tolerance epsilon (after c n m calls)).2 ≠ .ok g := by
  intro hg
  obtain ⟨_, _, _, -, -, -, -, a5, -⟩ := function_curve c hroot ha n m calls p0 p1 k tolerance epsilon g hg
  exact absurd a5 (not_le.2 h)

end

section
variable {κ : Type} [DecidableEq κ]

/-- C105. For an integrand with four continuous derivatives, the third one bounded by `L` and the fourth one by `M`, the
function for the arc length is everywhere within `(M (p1 - t0) / 2880 + L / 384) h^4` of the integral, where `h` is the
maximum step size. -/
theorem function_error (root : ℝ → ℝ) (f : ℝ → κ → ℝ) (b : Configuration ℝ κ)
    (hroot : ∀ x, 0 ≤ x → x ≤ 1 → root x ≤ 1) (ha : 0 ≤ b.accuracy) (n m : Nat)
    (calls : List (Call ℝ κ)) (p0 p1 : ℝ) (k : κ) (tolerance epsilon : ℝ) (g : ℝ → Except Err ℝ) (L M : ℝ) (hf : ContDiff ℝ 4 (f · k))
    (hL : ∀ t ∈ Set.Icc b.parameterLowerBound p1, |iteratedDeriv 3 (f · k) t| ≤ L)
    (hM : ∀ t ∈ Set.Icc b.parameterLowerBound p1, |iteratedDeriv 4 (f · k) t| ≤ M)
    (h : (intervalFunction (arcLength root f b) n m p0 p1 k tolerance epsilon (after (arcLength root f b) n m calls)).2 = .ok g)
    (ht : 0 < tolerance) (p : ℝ) (h0 : p0 ≤ p) (h1 : p ≤ p1) :
    ∃ v, g p = .ok v ∧ |v - ∫ t in b.parameterLowerBound..p, f t k| ≤
      (M * (p1 - b.parameterLowerBound) / 2880 + L / 384) * b.maxStep ^ 4 := by
  obtain ⟨x, y, d, l, r, hd, a1, a2, a3, a4, a5⟩ :=
    function_value (arcLength root f b) hroot ha n m calls p0 p1 k tolerance epsilon g h ht p h0 h1
  refine ⟨_, a5, ?_⟩
  obtain ⟨s, hs, hy⟩ := a1.pair
  have hs' : Forward b.maxStep x.1 x.2 s := hs.1
  have hxy : y.1 = x.1 + s := by rw [hy]
  have hc := hf.continuous
  have hrx : Reaches (fun u _ => f u k) (Forward b.maxStep) b.parameterLowerBound 0 x.1 x.2 := a1.upTo.mono fun _ _ _ h => h.1
  have hry : Reaches (fun u _ => f u k) (Forward b.maxStep) b.parameterLowerBound 0 y.1 y.2 := by
    have : l ++ x :: y :: r = (l ++ [x]) ++ y :: r := by simp
    exact (this ▸ a1).upTo.mono fun _ _ _ h => h.1
  have hyp : y.1 ≤ p1 := by
    have e : l ++ x :: y :: r = (l ++ [x]) ++ y :: r := by simp
    have := (e ▸ a1).le_last (e ▸ a2) fun _ _ _ h => h.1.1
    rwa [hd] at this
  have node : ∀ z : ℝ × ℝ, Reaches (fun u _ => f u k) (Forward b.maxStep) b.parameterLowerBound 0 z.1 z.2 → z.1 ≤ p1 →
      b.parameterLowerBound ≤ z.1 ∧
      |z.2 - ∫ t in b.parameterLowerBound..z.1, f t k| ≤ M * (p1 - b.parameterLowerBound) / 2880 * b.maxStep ^ 4 := by
    intro z hz hzp
    obtain ⟨ts, t1, t2⟩ := hz.partition (f := (f · k))
    obtain ⟨q1, q2⟩ := simpson_error hf ts _ t1 (fun t ht => hM t ⟨ht.1, ht.2.trans hzp⟩)
    refine ⟨q1, ?_⟩
    rw [t2, zero_add]
    refine q2.trans ?_
    have hM0 : 0 ≤ M := (abs_nonneg _).trans (hM z.1 ⟨q1, hzp⟩)
    have h4 : 0 ≤ b.maxStep ^ 4 := by positivity
    have : M * (z.1 - b.parameterLowerBound) * b.maxStep ^ 4 ≤ M * (p1 - b.parameterLowerBound) * b.maxStep ^ 4 :=
      mul_le_mul_of_nonneg_right (mul_le_mul_of_nonneg_left (by linarith) hM0) h4
    linarith
  have hdv : ∀ i : ℕ, (i : ℕ) < 4 → ∀ t, HasDerivAt (iteratedDeriv i (f · k)) (iteratedDeriv (i + 1) (f · k) t) t := by
    intro i hi t
    have := (hf.differentiable_iteratedDeriv i (by exact_mod_cast hi)) t
    rw [iteratedDeriv_succ]
    exact this.hasDerivAt
  have hF : ∀ t, HasDerivAt (fun u => ∫ t in b.parameterLowerBound..u, f t k) (f t k) t := fun t =>
    intervalIntegral.integral_hasDerivAt_right (hc.intervalIntegrable _ _) (hc.stronglyMeasurableAtFilter _ _) hc.continuousAt
  have hpos := hs'.1
  obtain ⟨n1, n2⟩ := node x hrx (by linarith)
  obtain ⟨n3, n4⟩ := node y hry hyp
  have key := cubic_error (F := fun u => ∫ t in b.parameterLowerBound..u, f t k) (f := (f · k)) (f1 := iteratedDeriv 1 (f · k))
    (f2 := iteratedDeriv 2 (f · k)) (f3 := iteratedDeriv 3 (f · k)) hF (fun t => by simpa using hdv 0 (by norm_num) t)
    (hdv 1 (by norm_num)) (hdv 2 (by norm_num)) (a := x) (b := y) (L := L)
    (fun t ht => hL t ⟨n1.trans ht.1, ht.2.trans hyp⟩) (by linarith) n2 n4 ⟨a3, a4⟩
  refine key.trans ?_
  have hL0 : 0 ≤ L := (abs_nonneg _).trans (hL x.1 ⟨n1, by linarith⟩)
  have hst : (y.1 - x.1) ^ 4 ≤ b.maxStep ^ 4 := pow_le_pow_left₀ (by linarith) (by linarith [hs'.2]) 4
  have := mul_le_mul_of_nonneg_left hst hL0
  linarith

end

/-- Whether making a function throws. -/
theorem throws_of {α : Type} {r : Except Stop α} (h : (match r with | .error (.err .throws) => true | _ => false) = true) :
    r = .error (.err .throws) := by
  split at h
  · rfl
  · cases h

/-- The values of a function that has been made. -/
theorem values_of {r : Except Stop (ℚ → Except Err ℚ)} {l : List (ℚ × ℚ)}
    (h : (match r with | .ok g => l.all fun xy => decide (g xy.1 = .ok xy.2) | .error _ => false) = true) :
    ∃ g, r = .ok g ∧ ∀ xy ∈ l, g xy.1 = .ok xy.2 := by
  split at h
  · rename_i g
    exact ⟨g, rfl, fun xy hxy => by simpa using List.all_eq_true.1 h xy hxy⟩
  · cases h

/-- A function for the square on the interval from 1/2 to 2, after an `Evaluate`. -/
example : ∃ g, (intervalFunction squareSetup 9 9 (1 / 2) 2 () (1 / 10) 0 (after squareSetup 9 9 [.evaluate 1 ()])).2 = .ok g ∧
    ∀ xy ∈ [((1 / 2 : ℚ), (1 / 24 : ℚ)), (3 / 2, 9 / 8), (2, 8 / 3), (41 / 20, 8 / 3)], g xy.1 = .ok xy.2 := values_of (by decide +kernel)

/-- A constant, for the sliver. -/
def constantSetup : Setup ℚ Unit := arcLength stepRoot (fun _ _ => 1) ⟨0, 0, (), 1, 1, 1 / 10⟩

/-- C106 fails when a step ends just before the end of the interval: `Evaluate` gives the value of the end, the function
for the same interval is refused. -/
theorem function_sliver :
    (solve constantSetup 9 9 (1 + 1 / 2 ^ 60) () (fresh constantSetup)).2 = .ok (1 + 1 / 2 ^ 60) ∧
    (intervalFunction constantSetup 9 9 0 (1 + 1 / 2 ^ 60) () 1 0 (fresh constantSetup)).2 = .error (.err .throws) :=
  ⟨by decide +kernel, throws_of (by decide +kernel)⟩

/-- C106 fails for the interval that is only the lower bound.  The failure leaves the dense output on: `Evaluate` for the
lower bound, which works in a new integrator, throws afterwards. -/
theorem function_point :
    (intervalFunction constantSetup 9 9 0 0 () 1 0 (fresh constantSetup)).2 = .error (.err .throws) ∧
    (solve constantSetup 9 9 0 () (fresh constantSetup)).2 = .ok 0 ∧
    (solve constantSetup 9 9 0 () (after constantSetup 9 9 [.function 0 0 () 1 0])).2 = .error (.err .throws) :=
  ⟨throws_of (by decide +kernel), by decide +kernel, by decide +kernel⟩

/-- An initial step size of zero. -/
def restingSetup : Setup ℚ Unit := arcLength stepRoot (fun _ _ => 1) ⟨0, 0, (), 0, 1, 1 / 10⟩

/-- C106 fails for an initial step size of zero, which is accepted: the first step is an attempt that stays at the lower
bound, `Evaluate` goes on and gives its value, the function is refused. -/
theorem function_resting :
    (solve restingSetup 60 60 1 () (fresh restingSetup)).2 = .ok 1 ∧
    (intervalFunction restingSetup 60 60 0 1 () 1 0 (fresh restingSetup)).2 = .error (.err .throws) :=
  ⟨by decide +kernel, throws_of (by decide +kernel)⟩

/-- A slope that falls to zero and rises to four. -/
def valleySetup : Setup ℚ Unit :=
  arcLength stepRoot (fun t _ => if t ≤ 1 / 20 then 1 - 20 * t else 80 * (t - 1 / 20)) ⟨0, 0, (), 1 / 10, 1 / 10, 1 / 10⟩

/-- C105 fails in general for the order of the values: the integrand is nowhere negative and the function falls between
the points 7/200 and 9/200. -/
theorem function_falls : (∀ t, 0 ≤ valleySetup.f t 0 ()) ∧
    ∃ g, (intervalFunction valleySetup 9 9 0 (1 / 10) () 1 0 (fresh valleySetup)).2 = .ok g ∧
      g (7 / 200) = .ok (77 / 12000) ∧ g (9 / 200) = .ok (9 / 2000) := by
  constructor
  · intro t
    show 0 ≤ (if t ≤ 1 / 20 then 1 - 20 * t else 80 * (t - 1 / 20))
    split
    · linarith
    · rename_i h; linarith [not_le.1 h]
  · obtain ⟨g, h1, h2⟩ := values_of (r := (intervalFunction valleySetup 9 9 0 (1 / 10) () 1 0 (fresh valleySetup)).2)
      (l := [(7 / 200, 77 / 12000), (9 / 200, 9 / 2000)]) (by decide +kernel)
    exact ⟨g, h1, h2 (7 / 200, 77 / 12000) (by simp), h2 (9 / 200, 9 / 2000) (by simp)⟩

/-- `function_quadratic` and `function_then_evaluate` for the square. -/
example : ∃ g, (intervalFunction squareSetup 9 9 (1 / 2) 2 () (1 / 10) 0 (after squareSetup 9 9 [.evaluate 1 ()])).2 = .ok g ∧
    (∀ p, 1 / 2 ≤ p → p ≤ 2 → g p = .ok (p ^ 3 / 3)) := by
  obtain ⟨g, h1, -⟩ := values_of (r := (intervalFunction squareSetup 9 9 (1 / 2) 2 () (1 / 10) 0 (after squareSetup 9 9 [.evaluate 1 ()])).2)
    (l := []) (by decide +kernel)
  refine ⟨g, h1, fun p h2 h3 => ?_⟩
  have := function_quadratic squareSetup stepRoot_ok (by decide +kernel) 9 9 [.evaluate 1 ()] (1 / 2) 2 () (1 / 10) 0 g 0 0 1
    (fun t x => by show t ^ 2 = _; ring) h1 (by norm_num) p h2 h3
  rw [this]
  congr 1
  show (0 : ℚ) + 0 * (p - 0) + 0 / 2 * (p ^ 2 - 0 ^ 2) + 1 / 3 * (p ^ 3 - 0 ^ 3) = p ^ 3 / 3
  ring

/-- The hypothesis of `function_monotone_partial` for the integrand 1 + t / 2 on the interval from 0 to 2. -/
example : ∀ t x : ℚ, 0 ≤ t → t ≤ 2 → 1 ≤ (fun t _ => 1 + t / 2) t x ∧ (fun t _ => 1 + t / 2) t x ≤ (3 * 1 : ℚ) := by
  intro t _ h1 h2
  constructor <;> dsimp only <;> linarith

end Maliput.Props
