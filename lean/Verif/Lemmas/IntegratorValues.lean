import Verif.Lemmas.IntegratorCalls

set_option autoImplicit false
set_option linter.unusedSectionVars false

/-! Lemmas for the integrators: the values that steps lead to. -/
namespace Maliput.Ode

open Maliput Piecewise Spec
open Maliput.RouteGraph (Stop)

variable {R κ : Type} [Field R] [LinearOrder R] [IsStrictOrderedRing R] [DecidableEq κ]
variable {c : Setup R κ} {s s' : State R κ}

theorem kutta_bounds {f : R → R → R} {t x h lo hi b : R} (hf : ∀ u y, t ≤ u → u ≤ t + h → lo ≤ f u y ∧ f u y ≤ hi)
    (hh : Forward b t x h) : lo * h ≤ kutta f t x h - x ∧ kutta f t x h - x ≤ hi * h := by
  have h0 := hh.1
  simp only [kutta]
  obtain ⟨a1, a2⟩ := hf t x (le_refl _) (by linarith)
  obtain ⟨b1, b2⟩ := hf (t + h / 2) (x + h / 2 * f t x) (by linarith) (by linarith)
  obtain ⟨c1, c2⟩ := hf (t + h) (x - h * f t x + 2 * h * f (t + h / 2) (x + h / 2 * f t x)) (by linarith) (by linarith)
  generalize f (t + h) (x - h * f t x + 2 * h * f (t + h / 2) (x + h / 2 * f t x)) = k3 at c1 c2 ⊢
  generalize f (t + h / 2) (x + h / 2 * f t x) = k2 at b1 b2 ⊢
  generalize f t x = k1 at a1 a2 ⊢
  rw [add_sub_cancel_left]
  constructor
  · rw [le_div_iff₀ (by norm_num)]
    nlinarith
  · rw [div_le_iff₀ (by norm_num)]
    nlinarith

theorem Spec.Reaches.bounds {f : R → R → R} {t0 x0 t x lo hi b : R} (hr : Reaches f (Forward b) t0 x0 t x)
    (hf : ∀ u y, t0 ≤ u → u ≤ t → lo ≤ f u y ∧ f u y ≤ hi) :
    lo * (t - t0) ≤ x - x0 ∧ x - x0 ≤ hi * (t - t0) := by
  have key : ∀ T, (∀ u y, t0 ≤ u → u ≤ T → lo ≤ f u y ∧ f u y ≤ hi) →
      t0 ≤ t ∧ (t ≤ T → lo * (t - t0) ≤ x - x0 ∧ x - x0 ≤ hi * (t - t0)) := by
    intro T hT
    refine hr.induct (P := fun t x => t0 ≤ t ∧ (t ≤ T → lo * (t - t0) ≤ x - x0 ∧ x - x0 ≤ hi * (t - t0))) ?_ ?_
    · simp
    · intro t x h hp hh
      have h0 := hh.1
      refine ⟨by linarith [hp.1], fun hle => ?_⟩
      obtain ⟨p1, p2⟩ := hp.2 (by linarith)
      obtain ⟨q1, q2⟩ := kutta_bounds (fun u y h1 h2 => hT u y (by linarith [hp.1]) (by linarith)) hh
      constructor <;> nlinarith
  exact (key t hf).2 (le_refl _)

theorem kutta_simpson (f : R → R) (t x h : R) :
    kutta (fun u _ => f u) t x h = x + (t + h - t) / 6 * (f t + 4 * f ((t + (t + h)) / 2) + f (t + h)) := by
  simp only [kutta]
  rw [show (t + (t + h)) / 2 = t + h / 2 by ring]
  ring

theorem simpson_snoc (f : R → R) (a b : R) : ∀ l : List R,
    simpson f (l ++ [a] ++ [b]) = simpson f (l ++ [a]) + (b - a) / 6 * (f a + 4 * f ((a + b) / 2) + f b)
  | [] => by simp [simpson]
  | [x] => by simp [simpson]
  | x :: y :: l => by
    have := simpson_snoc f a b (y :: l)
    simp only [List.cons_append, simpson] at this ⊢
    rw [this]; ring

theorem Spec.Reaches.partition {f : R → R} {t0 x0 t x b : R} (hr : Reaches (fun u _ => f u) (Forward b) t0 x0 t x) :
    ∃ ts, Partition b t0 t ts ∧ x = x0 + simpson f ts := by
  refine hr.induct (P := fun t x => ∃ ts, Partition b t0 t ts ∧ x = x0 + simpson f ts) ?_ ?_
  · exact ⟨[t0], ⟨rfl, rfl, List.isChain_singleton _⟩, by simp [simpson]⟩
  · rintro t x h ⟨ts, ⟨h1, h2, h3⟩, h4⟩ hh
    obtain ⟨l, rfl⟩ := List.getLast?_eq_some_iff.1 h2
    refine ⟨l ++ [t] ++ [t + h], ⟨?_, by simp, ?_⟩, ?_⟩
    · rw [List.head?_append, h1]; rfl
    · rw [List.isChain_append]
      refine ⟨h3, List.isChain_singleton _, fun u hu v hv => ?_⟩
      simp at hu hv
      subst hu hv
      exact ⟨by linarith [hh.1], by linarith [hh.2]⟩
    · rw [kutta_simpson, simpson_snoc, h4]; ring

/-- Simpson's rule on a cubic polynomial. -/
theorem simpson_cubic (c0 c1 c2 c3 a b : R) (ts : List R) (bound : R) (h : Partition bound a b ts) :
    simpson (fun t => c0 + c1 * t + c2 * t ^ 2 + c3 * t ^ 3) ts =
      c0 * (b - a) + c1 / 2 * (b ^ 2 - a ^ 2) + c2 / 3 * (b ^ 3 - a ^ 3) + c3 / 4 * (b ^ 4 - a ^ 4) := by
  obtain ⟨h1, h2, -⟩ := h
  induction ts generalizing a with
  | nil => cases h1
  | cons x l ih =>
    cases h1
    cases l with
    | nil => cases h2; simp [simpson]
    | cons y l =>
      rw [simpson, ih y rfl (by rwa [List.getLast?_cons_cons] at h2)]
      field_simp
      ring

/-! The initial point does not matter for a run. -/

theorem attempts_initial (c : Setup R κ) (t0 x0 hmax : R) : ∀ (n : Nat) (s : State R κ) (attempt : R) (atMin : Bool),
    attempts { c with t0 := t0, x0 := x0 } hmax n s attempt atMin = attempts c hmax n s attempt atMin
  | 0, _, _, _ => rfl
  | n + 1, s, attempt, atMin => by
    unfold attempts
    dsimp only
    generalize step c.f s (stepSize c.maxStep hmax attempt) = r
    obtain ⟨s', r⟩ := r
    cases r with
    | error e => rfl
    | ok err =>
      dsimp only
      generalize calcAdjusted c.root s'.accuracy c.maxStep s'.time err (stepSize c.maxStep hmax attempt) atMin = q
      match q with
      | .error e => rfl
      | .ok (true, next, _) => rfl
      | .ok (false, next, atMin') =>
        dsimp only
        cases dropSegment s'.dense with
        | error e => rfl
        | ok d => exact attempts_initial c t0 x0 hmax n _ next atMin'

theorem integrateTo_initial (c : Setup R κ) (t0 x0 : R) (n : Nat) (tf : R) : ∀ (m : Nat) (s : State R κ),
    integrateTo { c with t0 := t0, x0 := x0 } n tf m s = integrateTo c n tf m s
  | 0, _ => rfl
  | m + 1, s => by
    unfold integrateTo
    have : ∀ b, integrateNoFurther { c with t0 := t0, x0 := x0 } n s b = integrateNoFurther c n s b := by
      intro b
      unfold integrateNoFurther stepOnce
      simp only [attempts_initial]
    simp only [this, integrateTo_initial c t0 x0 n tf m]

/-- A run goes on from its first point. -/
theorem integrateTo_from (hu : Usable c) (n m : Nat) (tf : R) (s : State R κ) (hi : Inv c s) (hin : s.initialized = true)
    (hle : s.time ≤ tf) (hok : (integrateTo c n tf m s).2 = .ok ()) :
    Reaches (c.rhs s.k) (Forward c.maxStep) s.time s.state tf (integrateTo c n tf m s).1.state := by
  have hi' : Inv { c with t0 := s.time, x0 := s.state } s := ⟨hi.same, .start _ _ _ _, hi.ideal, hi.init⟩
  have hu' : Usable { c with t0 := s.time, x0 := s.state } := ⟨hu.root, hu.accuracy⟩
  obtain ⟨j1, j2, -, -, j5⟩ := integrateTo_spec hu' n tf m s hi' hin hle
  rw [integrateTo_initial] at j1 j2 j5
  have h1 := j1.reach
  rw [(j5 hok).1] at h1
  rw [j2.k] at h1
  exact h1

theorem tame_of_smooth {c : Setup R κ} {k : κ} {a b : R} (h : Spec.Smooth (fun t x => c.f t x k) (min c.accuracy (1 / 10)) a b) :
    Tame c k a b := by
  intro t x h' h1 h2 h3 h4
  refine h t x h' h1 h2 h3 (lt_of_lt_of_eq h4 ?_)
  rw [workingMinimum_eq]; unfold tol; ring

/-- After `Evaluate` has returned. -/
theorem evaluate_state {c : Setup R κ} (hu : Usable c) (n m : Nat) {s : State R κ} (hi : Inv c s) {p : R} {k : κ} {v : R}
    (h : (solve c n m p k s).2 = .ok v) :
    Inv c (solve c n m p k s).1 ∧ (solve c n m p k s).1.time = p ∧ (solve c n m p k s).1.state = v ∧
      (solve c n m p k s).1.k = k ∧ (solve c n m p k s).1.initialized = true := by
  obtain ⟨h1, h2⟩ := solve_spec hu n m p k s hi
  obtain ⟨q1, q2, q3, q4, q5, q6, -⟩ := h2 v h
  refine ⟨h1, q1, q2, q3, ?_⟩
  obtain ⟨s2, a1, a2, a3, a4, -, -, -, a9⟩ := solve_eq hi ⟨q5, q6⟩ q4 k
  rw [a9]
  obtain ⟨-, j2, -⟩ := integrateTo_spec hu n p m s2 a1 a2 a4
  generalize integrateTo c n p m s2 = r at j2
  obtain ⟨s3, r⟩ := r
  cases r <;> exact j2.initialized.trans a2

end Maliput.Ode
