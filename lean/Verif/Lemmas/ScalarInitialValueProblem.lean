import Verif.Lemmas.InitialValueProblemErrors
import Verif.Model.ScalarInitialValueProblem
import Verif.Lemmas.IntegratorValues

set_option autoImplicit false
set_option linter.unusedSectionVars false

/-! Lemmas for scalar initial value problems: vectors of one element. -/
namespace Maliput.ScalarIvp

open Maliput
open Maliput.RouteGraph (Stop)
open Maliput.Ivp (Setup State Piece)

variable {R : Type} [Field R] [LinearOrder R] [IsStrictOrderedRing R]

/-- A call as a call of the problem with vectors. -/
def Call.toVector : Call R → Ivp.Call R
  | .solve tf v => .solve tf v.toVector
  | .denseSolve tf v => .denseSolve tf v.toVector

theorem solve_state (c : Setup R) (n m : Nat) (tf : R) (v : Values R) (s : State R) :
    (solve c n m tf v s).1 = (Ivp.solve c n m tf v.toVector s).1 := by
  unfold solve
  generalize Ivp.solve c n m tf v.toVector s = r
  obtain ⟨s', r⟩ := r
  rcases r with e | (_ | ⟨x, l⟩) <;> rfl

theorem denseSolve_state (c : Setup R) (n m : Nat) (tf : R) (v : Values R) (s : State R) :
    (denseSolve c n m tf v s).1 = (Ivp.denseSolve c n m tf v.toVector s).1 := by
  unfold denseSolve
  generalize Ivp.denseSolve c n m tf v.toVector s = r
  obtain ⟨s', r⟩ := r
  rcases r with e | d <;> rfl

theorem after_toVector (c : Setup R) (n m : Nat) (calls : List (Call R)) :
    after c n m calls = Ivp.after c n m (calls.map Call.toVector) := by
  unfold after Ivp.after
  rw [List.foldl_map]
  congr 1
  funext s a
  cases a with
  | solve tf v => exact solve_state c n m tf v s
  | denseSolve tf v => exact denseSolve_state c n m tf v s

theorem solve_ok {c : Setup R} {n m : Nat} {tf : R} {v : Values R} {s : State R} {x : R} (h : (solve c n m tf v s).2 = .ok x) :
    ∃ l, (Ivp.solve c n m tf v.toVector s).2 = .ok (x :: l) := by
  unfold solve at h
  generalize Ivp.solve c n m tf v.toVector s = r at h ⊢
  obtain ⟨s', r⟩ := r
  rcases r with e | (_ | ⟨y, l⟩)
  · cases h
  · cases h
  · cases h; exact ⟨l, rfl⟩

theorem denseSolve_ok {c : Setup R} {n m : Nat} {tf : R} {v : Values R} {s : State R} {d : List (Piece R)}
    (h : (denseSolve c n m tf v s).2 = .ok d) : (Ivp.denseSolve c n m tf v.toVector s).2 = .ok d := by
  unfold denseSolve at h
  generalize Ivp.denseSolve c n m tf v.toVector s = r at h ⊢
  obtain ⟨s', r⟩ := r
  rcases r with e | d'
  · cases h
  · dsimp only at h
    split at h
    · cases h
    · exact h

theorem make_ok {f : R → R → List R → Except Err R} {root : R → R} {initialStep maxStep accuracy : R} {v : Values R} {c : Setup R}
    (h : make f root initialStep maxStep accuracy v = .ok c) :
    ∃ t0 x0 k, v = ⟨some t0, some x0, some k⟩ ∧ c = ⟨vectorFunction f, root, ⟨t0, [x0], k⟩, initialStep, maxStep, accuracy⟩ := by
  obtain ⟨t0, x0, k⟩ := v
  rcases t0 with _ | t0 <;> rcases x0 with _ | x0 <;> rcases k with _ | k <;> try (cases h)
  exact ⟨t0, x0, k, rfl, rfl⟩

/-! ### Steps of vectors of one element -/

theorem vectorFunction_one {f : R → R → List R → Except Err R} {k : List R} {t y : R} {d : List R}
    (h : Ivp.Spec.Slope (fun t y => vectorFunction f t y k) t [y] d) : ∃ e, d = [e] ∧ f t y k = .ok e := by
  obtain ⟨h, -⟩ := h
  dsimp only [vectorFunction] at h
  cases hf : f t y k with
  | error e => rw [hf] at h; cases h
  | ok e => rw [hf] at h; cases h; exact ⟨e, rfl, rfl⟩

theorem step_one {f : R → R → List R → Except Err R} {k : List R} {g : R → R → R} (hg : ∀ t y e, f t y k = .ok e → g t y = e)
    {allowed : Ivp.Spec.Allowed R} {allowed' : R → R → R → Prop}
    (ha : ∀ t y h, allowed t 1 h [g t y] [g (t + h / 2) (y + h / 2 * g t y)]
      [g (t + h) (y - h * g t y + 2 * h * g (t + h / 2) (y + h / 2 * g t y))] → allowed' t y h)
    {t y : R} {b : R × List R} (h : Ivp.Spec.Step (fun t y => vectorFunction f t y k) allowed (t, [y]) b) :
    ∃ h, allowed' t y h ∧ b = (t + h, [Ode.Spec.kutta g t y h]) := by
  obtain ⟨h, k1, k2, k3, h1, ⟨s1, s2, s3⟩, rfl⟩ := h
  obtain ⟨e1, rfl, f1⟩ := vectorFunction_one s1
  obtain ⟨e2, rfl, f2⟩ := vectorFunction_one (y := y + h / 2 * e1) s2
  obtain ⟨e3, rfl, f3⟩ := vectorFunction_one (y := y - h * e1 + 2 * h * e2) s3
  have g1 := hg _ _ _ f1
  have g2 := hg _ _ _ f2
  have g3 := hg _ _ _ f3
  dsimp only at g1 g2 g3 h1
  subst g1 g2
  rw [← g3] at h1
  refine ⟨h, ha _ _ _ h1, ?_⟩
  show (_, [_]) = (_, [_])
  simp only [Ode.Spec.kutta, g3]
  rfl

/-- Points with a state of one element. -/
def one (a : R × R) : R × List R := (a.1, [a.2])

theorem steps_one {f : R → R → List R → Except Err R} {k : List R} {g : R → R → R} (hg : ∀ t y e, f t y k = .ok e → g t y = e)
    {allowed : Ivp.Spec.Allowed R} {allowed' : R → R → R → Prop}
    (ha : ∀ t y h, allowed t 1 h [g t y] [g (t + h / 2) (y + h / 2 * g t y)]
      [g (t + h) (y - h * g t y + 2 * h * g (t + h / 2) (y + h / 2 * g t y))] → allowed' t y h) :
    ∀ (knots : List (R × List R)) (t0 x0 : R), Ivp.Spec.Steps (fun t y => vectorFunction f t y k) allowed t0 [x0] knots →
      ∃ l, knots = l.map one ∧ Ode.Spec.Steps g allowed' t0 x0 l
  | [], t0, x0, h => by cases h.1
  | [a], t0, x0, h => by
    cases h.1
    exact ⟨[(t0, x0)], rfl, rfl, .singleton _⟩
  | a :: b :: r, t0, x0, h => by
    obtain ⟨h1, h2⟩ := h
    cases h1
    obtain ⟨h2, h3⟩ := List.isChain_cons_cons.1 h2
    obtain ⟨h, h4, rfl⟩ := step_one hg ha h2
    obtain ⟨l, h5, h6, h7⟩ := steps_one hg ha _ _ _ ⟨rfl, h3⟩
    refine ⟨(t0, x0) :: l, by rw [h5]; rfl, rfl, ?_⟩
    cases l with
    | nil => cases h6
    | cons c l =>
      cases h6
      exact List.isChain_cons_cons.2 ⟨⟨h, h4, rfl⟩, h7⟩

theorem getLast_one {l : List (R × R)} {t : R} {x : List R} (h : (l.map one).getLast? = some (t, x)) :
    ∃ y, x = [y] ∧ l.getLast? = some (t, y) := by
  rw [List.getLast?_map, Option.map_eq_some_iff] at h
  obtain ⟨⟨t', y⟩, h1, h2⟩ := h
  cases h2
  exact ⟨y, rfl, h1⟩

theorem reaches_one {f : R → R → List R → Except Err R} {k : List R} {g : R → R → R} (hg : ∀ t y e, f t y k = .ok e → g t y = e)
    {allowed : Ivp.Spec.Allowed R} {allowed' : R → R → R → Prop}
    (ha : ∀ t y h, allowed t 1 h [g t y] [g (t + h / 2) (y + h / 2 * g t y)]
      [g (t + h) (y - h * g t y + 2 * h * g (t + h / 2) (y + h / 2 * g t y))] → allowed' t y h) {t0 x0 t y : R} {l : List R}
    (h : Ivp.Spec.Reaches (fun t y => vectorFunction f t y k) allowed t0 [x0] t (y :: l)) : Ode.Spec.Reaches g allowed' t0 x0 t y := by
  obtain ⟨knots, h1, h2⟩ := h
  obtain ⟨l', rfl, h3⟩ := steps_one hg ha _ _ _ h1
  obtain ⟨y', h4, h5⟩ := getLast_one h2
  cases h4
  exact ⟨l', h3, h5⟩

theorem forward_one {bound t h : R} {k1 k2 k3 : List R} {y : R} (hf : Ivp.Spec.Forward bound t 1 h k1 k2 k3) : Ode.Spec.Forward bound t y h := hf

theorem accurate_one {g : R → R → R} {bound accuracy t h y : R}
    (ha : Ivp.Spec.Accurate bound accuracy t 1 h [g t y] [g (t + h / 2) (y + h / 2 * g t y)]
      [g (t + h) (y - h * g t y + 2 * h * g (t + h / 2) (y + h / 2 * g t y))]) : Ode.Spec.Accurate g bound accuracy t y h :=
  ⟨ha.1, ha.2.imp (fun hw => hw 0 Nat.zero_lt_one) id⟩

/-- The initial state of a problem made from one number. -/
theorem getD_one {v : Values R} {x0 : R} : v.toVector.x0.getD [x0] = [v.x0.getD x0] := by
  obtain ⟨t0, x, k⟩ := v
  cases x <;> rfl

/-- Steps for a right hand side without the state visit increasing times, with the sums of Simpson's rule as states. -/
theorem steps_simpson {g : R → R} {bound accuracy : R} : ∀ (knots : List (R × R)) (t0 x0 : R),
    Ode.Spec.Steps (fun t _ => g t) (Ode.Spec.Accurate (fun t _ => g t) bound accuracy) t0 x0 knots →
    ((knots.map Prod.fst).IsChain fun t u => t < u ∧ u ≤ t + bound) ∧
    ∀ (i : Nat) a, knots[i]? = some a → a.2 = x0 + Ode.Spec.simpson g ((knots.map Prod.fst).take (i + 1))
  | [], t0, x0, h => by cases h.1
  | [a], t0, x0, h => by
    cases h.1
    refine ⟨.singleton _, fun i a ha => ?_⟩
    cases i with
    | zero => cases ha; simp [Ode.Spec.simpson]
    | succ i => cases ha
  | a :: b :: r, t0, x0, h => by
    obtain ⟨h1, h2⟩ := h
    cases h1
    obtain ⟨⟨h, h4, rfl⟩, h3⟩ := List.isChain_cons_cons.1 h2
    obtain ⟨j1, j2⟩ := steps_simpson _ _ _ ⟨rfl, h3⟩
    refine ⟨List.isChain_cons_cons.2 ⟨⟨by have := h4.1.1; dsimp only at this ⊢; linarith, by have := h4.1.2; dsimp only at this ⊢; linarith⟩, j1⟩,
      fun i a ha => ?_⟩
    cases i with
    | zero => cases ha; simp [Ode.Spec.simpson]
    | succ i =>
      have := j2 i a ha
      rw [this]
      simp only [List.map_cons, List.take_succ_cons, Ode.Spec.simpson, Ode.Spec.kutta]
      rw [show (t0 + (t0 + h)) / 2 = t0 + h / 2 by ring]
      ring

end Maliput.ScalarIvp
