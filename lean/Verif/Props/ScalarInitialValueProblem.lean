import Verif.Lemmas.ScalarInitialValueProblem
import Verif.Props.InitialValueProblem

set_option autoImplicit false
set_option linter.unusedSectionVars false

/-!
Properties of scalar initial value problems and antiderivatives (C143): what `Solve`, `DenseSolve`, `Evaluate` and `MakeDenseEvalFunction`
give, and which exceptions there are.

`after c n m calls` is the state after any sequence of calls, some of which may have thrown; the numbers `n` and `m` bound the attempts
of a step and the steps of a call.  The function of the user may fail: `g` is any function with its values where it does not.
-/
namespace Maliput.Props

open Maliput ScalarIvp
open Maliput.RouteGraph (Stop)
open Maliput.Ivp (Setup State Piece)

section
variable {R : Type} [Field R] [LinearOrder R] [IsStrictOrderedRing R]
variable {f : R → R → List R → Except Err R} {root : R → R} {initialStep maxStep accuracy t0 x0 : R} {k0 : List R} {c : Setup R}

/-- C143. A problem can be made if and only if a default initial time, a default initial state and default parameters are given; otherwise
the constructor throws. -/
theorem scalar_ivp_make (f : R → R → List R → Except Err R) (root : R → R) (initialStep maxStep accuracy : R) (v : Values R) :
    ((∃ c, make f root initialStep maxStep accuracy v = .ok c) ↔ v.t0 ≠ none ∧ v.x0 ≠ none ∧ v.k ≠ none) ∧
    ∀ e, make f root initialStep maxStep accuracy v = .error e → e = .throws := by
  obtain ⟨t0, x0, k⟩ := v
  rcases t0 with _ | t0 <;> rcases x0 with _ | x0 <;> rcases k with _ | k <;>
    exact ⟨⟨fun ⟨c, hc⟩ => by first | (simp; done) | (cases hc), fun h => by first | exact ⟨_, rfl⟩ | simp at h⟩, fun e he => by cases he; try rfl⟩

/-- C143. Whatever calls have been made before, and however they ended, `Solve(tf, values)` gives a number that steps of Kutta's third order
method for x' = f(t, x; k) lead to, from the initial time and state to `tf`, all of them forward and none longer than the maximum step size.
The initial time and state and the parameters are the given ones, or the default ones where none are given. -/
theorem scalar_ivp_reaches (hmake : make f root initialStep maxStep accuracy ⟨some t0, some x0, some k0⟩ = .ok c)
    (hroot : ∀ x, 0 ≤ x → x ≤ 1 → root x ≤ 1) (ha : 0 ≤ accuracy) (n m : Nat) (calls : List (Call R)) (tf : R) (v : Values R) (x : R)
    (g : R → R → R) (hg : ∀ t y d, f t y (v.k.getD k0) = .ok d → g t y = d)
    (h : (solve c n m tf v (after c n m calls)).2 = .ok x) :
    Ode.Spec.Reaches g (Ode.Spec.Forward maxStep) (v.t0.getD t0) (v.x0.getD x0) tf x := by
  cases hmake
  obtain ⟨l, h⟩ := solve_ok h
  rw [after_toVector] at h
  have := ivp_solve_reaches _ hroot ha (List.cons_ne_nil _ _) n m _ tf _ _ h
  dsimp only at this
  rw [getD_one] at this
  exact reaches_one hg (fun _ _ _ => forward_one) this

/-- C143. If no earlier call has thrown, every step has an error estimate that is not above the target accuracy (nor above 1/10), or is
about as short as the double precision of the times allows. -/
theorem scalar_ivp_accurate (hmake : make f root initialStep maxStep accuracy ⟨some t0, some x0, some k0⟩ = .ok c)
    (hroot : ∀ x, 0 ≤ x → x ≤ 1 → root x ≤ 1) (ha : 0 ≤ accuracy) (n m : Nat) (calls : List (Call R))
    (hc : ∀ pre a post, calls = pre ++ a :: post → Returned c n m (after c n m pre) a) (tf : R) (v : Values R) (x : R)
    (g : R → R → R) (hg : ∀ t y d, f t y (v.k.getD k0) = .ok d → g t y = d)
    (h : (solve c n m tf v (after c n m calls)).2 = .ok x) :
    Ode.Spec.Reaches g (Ode.Spec.Accurate g maxStep (min accuracy (1 / 10))) (v.t0.getD t0) (v.x0.getD x0) tf x := by
  cases hmake
  obtain ⟨l, h⟩ := solve_ok h
  rw [after_toVector] at h
  have := ivp_solve_accurate _ hroot ha (List.cons_ne_nil _ _) n m _ (fun pre a post hp => by
    obtain ⟨pre', r, h1, h2, h3⟩ := List.map_eq_append_iff.1 hp
    obtain ⟨a', post', rfl, h5, h6⟩ := List.map_eq_cons_iff.1 h3
    have := hc pre' a' post' h1
    rw [after_toVector, h2] at this
    rw [← h5]
    cases a' with
    | solve tf v =>
      obtain ⟨x, hx⟩ := this
      obtain ⟨l, hx⟩ := solve_ok hx
      exact ⟨_, hx⟩
    | denseSolve tf v =>
      obtain ⟨d, hd⟩ := this
      exact ⟨d, denseSolve_ok hd⟩) tf _ _ h
  dsimp only at this
  rw [getD_one] at this
  exact reaches_one hg (fun _ _ _ => accurate_one) this

/-- C143. `DenseSolve(tf, values)` gives pieces that join the points of such steps, from the initial time and state to the time `tf`, one
piece for each step, each with the values of `f` at both of its ends as slopes; there is at least one.  Whatever calls have been made before,
all its steps are as accurate as asked for. -/
theorem scalar_ivp_dense (hmake : make f root initialStep maxStep accuracy ⟨some t0, some x0, some k0⟩ = .ok c)
    (hroot : ∀ x, 0 ≤ x → x ≤ 1 → root x ≤ 1) (ha : 0 ≤ accuracy) (n m : Nat) (calls : List (Call R)) (tf : R) (v : Values R)
    (d : List (Piece R)) (g : R → R → R) (hg : ∀ t y d, f t y (v.k.getD k0) = .ok d → g t y = d)
    (h : (denseSolve c n m tf v (after c n m calls)).2 = .ok d) :
    ∃ knots, Ode.Spec.Steps g (Ode.Spec.Accurate g maxStep (min accuracy (1 / 10))) (v.t0.getD t0) (v.x0.getD x0) knots ∧
      (∃ x, knots.getLast? = some (tf, x)) ∧ d ≠ [] ∧ d.length + 1 = knots.length ∧
      ∀ (i : Nat) p a b, d[i]? = some p → knots[i]? = some a → knots[i + 1]? = some b →
        p = ⟨a.1, [a.2], [g a.1 a.2], b.1, [b.2], [g b.1 b.2]⟩ := by
  cases hmake
  have h := denseSolve_ok h
  rw [after_toVector] at h
  obtain ⟨knots, h1, ⟨x, h2⟩, h3, h4, h5⟩ := ivp_denseSolve_joins _ hroot ha (List.cons_ne_nil _ _) n m _ tf _ _ h
  dsimp only at h1
  rw [getD_one] at h1
  obtain ⟨l, rfl, h6⟩ := steps_one hg (fun _ _ _ => accurate_one) _ _ _ h1
  obtain ⟨y, -, h7⟩ := getLast_one h2
  refine ⟨l, h6, ⟨y, h7⟩, h3, by rw [h4, List.length_map], fun i p a b hp hka hkb => ?_⟩
  obtain ⟨e1, e2, e3, e4⟩ := h5 i p (one a) (one b) hp (by rw [List.getElem?_map, hka]; rfl) (by rw [List.getElem?_map, hkb]; rfl)
  obtain ⟨u, e5, e6⟩ := vectorFunction_one e3
  obtain ⟨w, e7, e8⟩ := vectorFunction_one e4
  obtain ⟨p1, p2, p3, p4, p5, p6⟩ := p
  dsimp only at e1 e2 e5 e7
  cases e1; cases e2
  have e6 := hg _ _ _ e6
  have e8 := hg _ _ _ e8
  rw [e5, e7, ← e6, ← e8]
  rfl

/-- C143. A scalar problem does exactly what the problem with vectors of one element does: `DenseSolve` returns or throws the same, and
`Solve` returns the first element, or throws the same. -/
theorem scalar_ivp_like_vector (hmake : make f root initialStep maxStep accuracy ⟨some t0, some x0, some k0⟩ = .ok c) (n m : Nat) (s : State R)
    (tf : R) (v : Values R) :
    denseSolve c n m tf v s = Ivp.denseSolve c n m tf ⟨v.t0, v.x0.map fun x => [x], v.k⟩ s ∧
    (∀ x l, (Ivp.solve c n m tf ⟨v.t0, v.x0.map fun x => [x], v.k⟩ s).2 = .ok (x :: l) → (solve c n m tf v s).2 = .ok x) ∧
    (∀ e, (Ivp.solve c n m tf ⟨v.t0, v.x0.map fun x => [x], v.k⟩ s).2 = .error e → (solve c n m tf v s).2 = .error e) := by
  cases hmake
  generalize hc : (⟨_, root, _, initialStep, maxStep, accuracy⟩ : Setup R) = c
  have hl : ¬ c.defaults.x0.length ≤ 0 := by rw [← hc]; simp
  refine ⟨?_, fun x l h => ?_, fun e h => ?_⟩
  · unfold denseSolve Values.toVector
    generalize Ivp.denseSolve c n m tf _ s = q
    obtain ⟨s', q⟩ := q
    cases q with
    | error e => rfl
    | ok d => dsimp only; rw [if_neg hl]
  · unfold solve Values.toVector
    generalize Ivp.solve c n m tf _ s = q at h
    obtain ⟨s', q⟩ := q
    dsimp only at h
    subst h
    rfl
  · unfold solve Values.toVector
    generalize Ivp.solve c n m tf _ s = q at h
    obtain ⟨s', q⟩ := q
    dsimp only at h
    subst h
    rfl

/-- C143. Whatever calls have been made before, the only exceptions are those of the library and those of `f` for the parameters of the
call: in particular the vectors that the scalars are kept in are never read beyond their ends. -/
theorem scalar_ivp_exceptions (hmake : make f root initialStep maxStep accuracy ⟨some t0, some x0, some k0⟩ = .ok c)
    (n m : Nat) (calls : List (Call R)) (tf : R) (v : Values R) (e : Err)
    (h : (solve c n m tf v (after c n m calls)).2 = .error (.err e) ∨ (denseSolve c n m tf v (after c n m calls)).2 = .error (.err e)) :
    e = .throws ∨ ∃ t y, f t y (v.k.getD k0) = .error e := by
  cases hmake
  have known : ∀ e, Ivp.Known (⟨vectorFunction f, root, ⟨t0, [x0], k0⟩, initialStep, maxStep, accuracy⟩ : Setup R) 1 (v.k.getD k0) e →
      e = .throws ∨ ∃ t y, f t y (v.k.getD k0) = .error e := by
    rintro e (he | ⟨t, y, hy, he⟩)
    · exact .inl he
    · obtain ⟨y, rfl⟩ := List.length_eq_one_iff.1 hy
      dsimp only [vectorFunction] at he
      cases hf : f t y (v.k.getD k0) with
      | error e' => rw [hf] at he; cases he; exact .inr ⟨t, y, hf⟩
      | ok d => rw [hf] at he; cases he
  rw [after_toVector] at h
  have hs := Ivp.after_sized (⟨vectorFunction f, root, ⟨t0, [x0], k0⟩, initialStep, maxStep, accuracy⟩ : Setup R) n m
    (calls.map Call.toVector)
  rcases h with h | h
  · obtain ⟨-, q1, q2⟩ := Ivp.solve_known n m tf v.toVector hs
    unfold solve at h
    generalize Ivp.solve _ n m tf v.toVector _ = r at h q1 q2
    obtain ⟨s', r⟩ := r
    rcases r with e' | (_ | ⟨y, l⟩)
    · cases h; exact known _ (q2 e rfl)
    · cases q1 [] rfl
    · cases h
  · obtain ⟨-, q2⟩ := Ivp.denseSolve_known n m tf v.toVector hs
    unfold denseSolve at h
    generalize Ivp.denseSolve _ n m tf v.toVector _ = r at h q2
    obtain ⟨s', r⟩ := r
    rcases r with e' | d
    · cases h; exact known _ (q2 e rfl)
    · dsimp only at h
      split at h
      · cases h; exact .inl rfl
      · cases h

/-- C143. Both refuse a time before the initial one and parameters of another number than the default ones; the problem is as it was
before. -/
theorem scalar_ivp_refuses (hmake : make f root initialStep maxStep accuracy ⟨some t0, some x0, some k0⟩ = .ok c)
    (n m : Nat) (s : State R) (tf : R) (v : Values R) (h : tf < v.t0.getD t0 ∨ ∃ k, v.k = some k ∧ k.length ≠ k0.length) :
    solve c n m tf v s = (s, .error (.err .throws)) ∧ denseSolve c n m tf v s = (s, .error (.err .throws)) := by
  cases hmake
  obtain ⟨h1, h2⟩ := ivp_refuses (⟨vectorFunction f, root, ⟨t0, [x0], k0⟩, initialStep, maxStep, accuracy⟩ : Setup R) n m s tf v.toVector
    (h.imp id .inr)
  unfold solve denseSolve
  rw [h1, h2]
  exact ⟨rfl, rfl⟩

/-! ### Antiderivatives -/

variable {a : R → List R → Except Err R} {b0 : Bound R}

/-- C143. An antiderivative can always be made. -/
theorem antiderivative_make (a : R → List R → Except Err R) (root : R → R) (initialStep maxStep accuracy : R) (b : Bound R) :
    ∃ c, antiderivative a root initialStep maxStep accuracy b = .ok c := ⟨_, rfl⟩

/-- C143. Whatever calls have been made before, `Evaluate(u, values)` gives the sum of Simpson's rule over a partition of the interval from
the lower bound to `u` with intervals that are not longer than the maximum step size.  The lower bound and the parameters are the given ones,
or else those given to the constructor, or else zero and none. -/
theorem antiderivative_simpson (hmake : antiderivative a root initialStep maxStep accuracy b0 = .ok c)
    (hroot : ∀ x, 0 ≤ x → x ≤ 1 → root x ≤ 1) (ha : 0 ≤ accuracy) (n m : Nat) (calls : List (Call R)) (u : R) (b : Bound R) (x : R)
    (g : R → R) (hg : ∀ t d, a t (b.k.getD (b0.k.getD [])) = .ok d → g t = d)
    (h : (evaluate c n m u b (after c n m calls)).2 = .ok x) :
    ∃ ts, Ode.Spec.Partition maxStep (b.v.getD (b0.v.getD 0)) u ts ∧ x = Ode.Spec.simpson g ts := by
  have := scalar_ivp_reaches (c := c) hmake hroot ha n m calls u b.values x (fun t _ => g t) (fun t _ d hd => hg t d hd) h
  obtain ⟨ts, h1, h2⟩ := this.partition
  exact ⟨ts, h1, by rw [h2]; exact zero_add _⟩

/-- C143. For a function that is a cubic polynomial it is the integral. -/
theorem antiderivative_cubic (hmake : antiderivative a root initialStep maxStep accuracy b0 = .ok c)
    (hroot : ∀ x, 0 ≤ x → x ≤ 1 → root x ≤ 1) (ha : 0 ≤ accuracy) (n m : Nat) (calls : List (Call R)) (u : R) (b : Bound R)
    (x c0 c1 c2 c3 : R) (hf : ∀ t, a t (b.k.getD (b0.k.getD [])) = .ok (c0 + c1 * t + c2 * t ^ 2 + c3 * t ^ 3))
    (h : (evaluate c n m u b (after c n m calls)).2 = .ok x) :
    let v := b.v.getD (b0.v.getD 0)
    x = c0 * (u - v) + c1 / 2 * (u ^ 2 - v ^ 2) + c2 / 3 * (u ^ 3 - v ^ 3) + c3 / 4 * (u ^ 4 - v ^ 4) := by
  intro v
  obtain ⟨ts, h1, h2⟩ := antiderivative_simpson hmake hroot ha n m calls u b x (fun t => c0 + c1 * t + c2 * t ^ 2 + c3 * t ^ 3)
    (fun t d hd => by rw [hf] at hd; cases hd; rfl) h
  rw [h2]
  exact Ode.simpson_cubic c0 c1 c2 c3 _ _ ts _ h1

/-- C143. `MakeDenseEvalFunction(w, values)` gives pieces with the values of the function as slopes at both ends of each, from the value zero
at the lower bound to the time `w`, that join points whose values are sums of Simpson's rule. -/
theorem antiderivative_dense (hmake : antiderivative a root initialStep maxStep accuracy b0 = .ok c)
    (hroot : ∀ x, 0 ≤ x → x ≤ 1 → root x ≤ 1) (ha : 0 ≤ accuracy) (n m : Nat) (calls : List (Call R)) (w : R) (b : Bound R)
    (d : List (Piece R)) (g : R → R) (hg : ∀ t d, a t (b.k.getD (b0.k.getD [])) = .ok d → g t = d)
    (h : (makeDense c n m w b (after c n m calls)).2 = .ok d) :
    ∃ ts, Ode.Spec.Partition maxStep (b.v.getD (b0.v.getD 0)) w ts ∧ d ≠ [] ∧ d.length + 1 = ts.length ∧
      ∀ (i : Nat) p t u, d[i]? = some p → ts[i]? = some t → ts[i + 1]? = some u →
        p = ⟨t, [Ode.Spec.simpson g (ts.take (i + 1))], [g t], u, [Ode.Spec.simpson g (ts.take (i + 2))], [g u]⟩ := by
  obtain ⟨knots, h1, ⟨x, h2⟩, h3, h4, h5⟩ :=
    scalar_ivp_dense (c := c) hmake hroot ha n m calls w b.values d (fun t _ => g t) (fun t _ d hd => hg t d hd) h
  obtain ⟨q1, q2⟩ := steps_simpson knots _ _ h1
  refine ⟨knots.map Prod.fst, ⟨?_, ?_, q1⟩, h3, by rw [List.length_map]; exact h4, fun i p t u hp ht hu => ?_⟩
  · rw [List.head?_map, h1.1]; rfl
  · rw [List.getLast?_map, h2]; rfl
  · rw [List.getElem?_map, Option.map_eq_some_iff] at ht hu
    obtain ⟨⟨t', y⟩, ht, rfl⟩ := ht
    obtain ⟨⟨u', z⟩, hu, rfl⟩ := hu
    have := h5 i p _ _ hp ht hu
    have e1 := q2 i _ ht
    have e2 := q2 (i + 1) _ hu
    dsimp only at e1 e2 this ⊢
    rw [this, e1, e2]
    simp [Bound.values]

end

/-- C143. For a function with four continuous derivatives, the fourth one bounded by `M`, `Evaluate` is within `M (u - v) h^4 / 2880` of the
integral from `v` to `u`, where `h` is the maximum step size. -/
theorem antiderivative_error {a : ℝ → List ℝ → Except Err ℝ} {b0 : Bound ℝ} {root : ℝ → ℝ} {initialStep maxStep accuracy : ℝ} {c : Setup ℝ}
    (hmake : antiderivative a root initialStep maxStep accuracy b0 = .ok c)
    (hroot : ∀ x, 0 ≤ x → x ≤ 1 → root x ≤ 1) (ha : 0 ≤ accuracy) (n m : Nat) (calls : List (Call ℝ)) (u : ℝ) (b : Bound ℝ) (x M : ℝ)
    (g : ℝ → ℝ) (hg : ∀ t, a t (b.k.getD (b0.k.getD [])) = .ok (g t)) (hd : ContDiff ℝ 4 g)
    (hM : ∀ t ∈ Set.Icc (b.v.getD (b0.v.getD 0)) u, |iteratedDeriv 4 g t| ≤ M)
    (h : (evaluate c n m u b (after c n m calls)).2 = .ok x) :
    let v := b.v.getD (b0.v.getD 0)
    |x - ∫ t in v..u, g t| ≤ M * (u - v) * maxStep ^ 4 / 2880 := by
  intro v
  obtain ⟨ts, h1, h2⟩ := antiderivative_simpson hmake hroot ha n m calls u b x g (fun t d hd => by rw [hg] at hd; cases hd; rfl) h
  rw [h2]
  exact (Ode.simpson_error hd ts _ h1 hM).2

/-! ### Examples -/

/-- Decay: x' = -k x, defined for states that are not negative. -/
def decay : ℚ → ℚ → List ℚ → Except Err ℚ := fun _ x k => if x < 0 then .error .throws else .ok (-(Ivp.Spec.elem k 0) * x)

/-- Its problem, with x(0) = 2 and k = 1/2 unless something else is given. -/
def decayProblem : Setup ℚ := ⟨vectorFunction decay, stepRoot, ⟨0, [2], [1 / 2]⟩, 1 / 2, 1 / 2, 1 / 10⟩

example : make decay stepRoot (1 / 2) (1 / 2) (1 / 10) ⟨some 0, some 2, some [1 / 2]⟩ = .ok decayProblem := rfl

example : make decay stepRoot (1 / 2) (1 / 2) (1 / 10) ⟨some 0, none, some [1 / 2]⟩ = .error .throws := rfl

/-- After a call that was refused, from another state and with another parameter: x' = -x from 1. -/
example : (solve decayProblem 9 9 1 ⟨none, some 1, some [1]⟩ (after decayProblem 9 9 [.solve (-1) ⟨none, none, none⟩])).2 =
    .ok (841 / 2304) := by decide +kernel

example : Ode.Spec.Reaches (fun _ x => -1 * x) (Ode.Spec.Forward (1 / 2)) (0 : ℚ) 1 1 (841 / 2304) :=
  scalar_ivp_reaches (f := decay) (c := decayProblem) rfl stepRoot_ok (by norm_num) 9 9 [.solve (-1) ⟨none, none, none⟩] 1 ⟨none, some 1, some [1]⟩ _ _
    (fun t y d hd => by
      unfold decay at hd
      split at hd
      · cases hd
      · cases hd; rfl) (by decide +kernel)

example : Ode.Spec.Reaches (fun _ x => -1 * x) (Ode.Spec.Accurate (fun _ x => -1 * x) (1 / 2) (min (1 / 10) (1 / 10))) (0 : ℚ) 1 1 (841 / 2304) :=
  scalar_ivp_accurate (f := decay) (c := decayProblem) rfl stepRoot_ok (by norm_num) 9 9 [] (fun pre a post h => by simp at h) 1
    ⟨none, some 1, some [1]⟩ _ _
    (fun t y d hd => by
      unfold decay at hd
      split at hd
      · cases hd
      · cases hd; rfl) (by decide +kernel)

/-- There is a solution with two pieces. -/
example : (match (denseSolve decayProblem 9 9 1 ⟨none, some 1, some [1]⟩ (Ivp.fresh decayProblem)).2 with
    | .ok d => decide (d.map (·.x1) = [[29 / 48], [841 / 2304]])
    | .error _ => false) = true := by decide +kernel

/-- From a negative state the exception of the function comes through. -/
example : (solve decayProblem 9 9 1 ⟨none, some (-1), none⟩ (Ivp.fresh decayProblem)).2 = .error (.err .throws) := by decide +kernel

example : (solve decayProblem 9 9 1 ⟨none, none, some [1, 2]⟩ (Ivp.fresh decayProblem)).2 = .error (.err .throws) :=
  congrArg Prod.snd (scalar_ivp_refuses (f := decay) (c := decayProblem) rfl 9 9 _ 1 ⟨none, none, some [1, 2]⟩
    (.inr ⟨_, rfl, by decide⟩)).1

/-- A function with another function's failure. -/
example (e : Err) (h : (solve decayProblem 9 9 1 ⟨none, some (-1), none⟩ (after decayProblem 9 9 [])).2 = .error (.err e)) : e = .throws := by
  rcases scalar_ivp_exceptions (f := decay) (c := decayProblem) rfl 9 9 [] 1 ⟨none, some (-1), none⟩ e (.inl h) with h | ⟨t, y, h⟩
  · exact h
  · unfold decay at h
    split at h
    · cases h; rfl
    · cases h

/-- The antiderivative of t^3 + k, from 1. -/
def power : ℚ → List ℚ → Except Err ℚ := fun t k => .ok (Ivp.Spec.elem k 0 + t ^ 3)

def powerIntegral : Setup ℚ := ⟨vectorFunction fun t _ k => power t k, stepRoot, ⟨1, [0], [2]⟩, 1, 1, 1 / 10⟩

example : antiderivative power stepRoot 1 1 (1 / 10) ⟨some 1, some [2]⟩ = .ok powerIntegral := rfl

example : (evaluate powerIntegral 9 9 3 ⟨none, none⟩ (after powerIntegral 9 9 [.solve 2 ⟨some 0, none, none⟩])).2 = .ok 24 := by decide +kernel

example (x : ℚ) (h : (evaluate powerIntegral 9 9 3 ⟨some 2, some [0]⟩ (after powerIntegral 9 9 [])).2 = .ok x) : x = 65 / 4 := by
  have := antiderivative_cubic (a := power) (b0 := ⟨some 1, some [2]⟩) (c := powerIntegral) rfl stepRoot_ok (by norm_num) 9 9 [] 3 ⟨some 2, some [0]⟩ x 0 0 0 1
    (fun t => by simp [power, Ivp.Spec.elem]) h
  rw [this]; norm_num

example : ∃ ts, Ode.Spec.Partition 1 1 3 ts ∧ (24 : ℚ) = Ode.Spec.simpson (fun t => 2 + t ^ 3) ts :=
  antiderivative_simpson (a := power) (b0 := ⟨some 1, some [2]⟩) (c := powerIntegral) rfl stepRoot_ok (by norm_num) 9 9 [.solve 2 ⟨some 0, none, none⟩] 3
    ⟨none, none⟩ 24 _ (fun t d hd => by cases hd; rfl) (by decide +kernel)

/-- Its dense form has pieces. -/
example : (match (makeDense powerIntegral 9 9 3 ⟨none, none⟩ (Ivp.fresh powerIntegral)).2 with
    | .ok d => decide (d.getLast?.map (·.x1) = some [24])
    | .error _ => false) = true := by decide +kernel

end Maliput.Props
