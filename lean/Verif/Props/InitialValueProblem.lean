import Verif.Lemmas.InitialValueProblemDense
import Verif.Lemmas.InitialValueProblemErrors
import Verif.Props.Integrator

set_option autoImplicit false
set_option linter.unusedSectionVars false

/-!
Properties of initial value problems with vectors (C142): what `Solve` and `DenseSolve` give, what they refuse, and how they depend on
earlier calls.

`after c n m calls` is the state after any sequence of calls, some of which may have thrown; the numbers `n` and `m` bound the attempts
of a step and the steps of a call.
-/
namespace Maliput.Props

open Maliput Ivp Ivp.Spec
open Maliput.RouteGraph (Stop)

section
variable {R : Type} [Field R] [LinearOrder R] [IsStrictOrderedRing R]

/-- C142. Whatever calls have been made before, and however they ended, `Solve(tf, values)` gives a state that steps of Kutta's third order
method lead to, from the initial time and state to `tf`, all of them forward and none longer than the maximum step size.  The initial time
and state and the parameters are the given ones, or the default ones where none are given. -/
theorem ivp_solve_reaches (c : Setup R) (hroot : ∀ x, 0 ≤ x → x ≤ 1 → c.root x ≤ 1) (ha : 0 ≤ c.accuracy) (hne : c.defaults.x0 ≠ [])
    (n m : Nat) (calls : List (Call R)) (tf : R) (v : Values R) (x : List R)
    (h : (solve c n m tf v (after c n m calls)).2 = .ok x) :
    Reaches (fun t y => c.f t y (v.k.getD c.defaults.k)) (Forward c.maxStep) (v.t0.getD c.defaults.t0) (v.x0.getD c.defaults.x0) tf x := by
  have hu : Usable c := ⟨hroot, ha⟩
  obtain ⟨i1, i2⟩ := after_inv hu hne n m calls
  obtain ⟨j1, -, j3⟩ := solve_spec hu hne n m tf v _ i1 i2
  obtain ⟨q1, q2, q3, q4, -⟩ := j3 x h
  have hp := (sanitize_ok.1 q3).1
  unfold Good at q4
  rw [j1.same, q1, q2, hp] at q4
  exact q4

/-- C142. If no earlier call has thrown, every step has an error estimate that is not above the target accuracy (nor above 1/10) in any
element, or is about as short as the double precision of the times allows. -/
theorem ivp_solve_accurate (c : Setup R) (hroot : ∀ x, 0 ≤ x → x ≤ 1 → c.root x ≤ 1) (ha : 0 ≤ c.accuracy)
    (hne : c.defaults.x0 ≠ []) (n m : Nat) (calls : List (Call R))
    (hc : ∀ pre a post, calls = pre ++ a :: post → Returned c n m (after c n m pre) a) (tf : R) (v : Values R) (x : List R)
    (h : (solve c n m tf v (after c n m calls)).2 = .ok x) :
    Reaches (fun t y => c.f t y (v.k.getD c.defaults.k)) (Accurate c.maxStep (min c.accuracy (1 / 10))) (v.t0.getD c.defaults.t0)
      (v.x0.getD c.defaults.x0) tf x := by
  have hu : Usable c := ⟨hroot, ha⟩
  obtain ⟨i1, i2⟩ := after_inv hu hne n m calls
  obtain ⟨j1, -, j3⟩ := solve_spec hu hne n m tf v _ i1 i2
  obtain ⟨q1, q2, q3, -, -, -, q4⟩ := j3 x h
  have hp := (sanitize_ok.1 q3).1
  have := q4 (after_acc hu hne n m calls hc)
  unfold Ivp.Acc at this
  rw [j1.same, q1, q2, hp] at this
  exact this

/-- C142. `DenseSolve(tf, values)` gives pieces that join the points of such steps, from the initial time and state to the time `tf`, one
piece for each step, each with the slopes of the right hand side at both of its ends; there is at least one.  Whatever calls have been made
before, all its steps are as accurate as asked for. -/
theorem ivp_denseSolve_joins (c : Setup R) (hroot : ∀ x, 0 ≤ x → x ≤ 1 → c.root x ≤ 1) (ha : 0 ≤ c.accuracy) (hne : c.defaults.x0 ≠ [])
    (n m : Nat) (calls : List (Call R)) (tf : R) (v : Values R) (d : List (Piece R))
    (h : (denseSolve c n m tf v (after c n m calls)).2 = .ok d) :
    let f : Rhs R := fun t y => c.f t y (v.k.getD c.defaults.k)
    ∃ knots, Steps f (Accurate c.maxStep (min c.accuracy (1 / 10))) (v.t0.getD c.defaults.t0) (v.x0.getD c.defaults.x0) knots ∧
      (∃ x, knots.getLast? = some (tf, x)) ∧ d ≠ [] ∧ d.length + 1 = knots.length ∧
      ∀ (i : Nat) p a b, d[i]? = some p → knots[i]? = some a → knots[i + 1]? = some b →
        (p.t0, p.x0) = a ∧ (p.t1, p.x1) = b ∧ Slope f a.1 a.2 p.d0 ∧ Slope f b.1 b.2 p.d1 := by
  have hu : Usable c := ⟨hroot, ha⟩
  obtain ⟨i1, i2⟩ := after_inv hu hne n m calls
  obtain ⟨p, knots, h1, -, h3, h4, ⟨h5, h6⟩, h7⟩ := (denseSolve_spec hu n m tf v _ i1 i2).2.2 d h
  obtain ⟨rfl, -⟩ := sanitize_ok.1 h1
  exact ⟨knots, h3, ⟨_, h4⟩, h7, h5, h6⟩

/-- C142. Both refuse a time before the initial one, and initial states and parameters of other sizes than the default ones; the problem
is as it was before. -/
theorem ivp_refuses (c : Setup R) (n m : Nat) (s : State R) (tf : R) (v : Values R)
    (h : tf < v.t0.getD c.defaults.t0 ∨ (∃ x, v.x0 = some x ∧ x.length ≠ c.defaults.x0.length) ∨
      ∃ k, v.k = some k ∧ k.length ≠ c.defaults.k.length) :
    solve c n m tf v s = (s, .error (.err .throws)) ∧ denseSolve c n m tf v s = (s, .error (.err .throws)) := by
  have : sanitize c.defaults tf v = .error .throws := by
    unfold sanitize
    dsimp only
    split
    · rfl
    · rename_i h0
      split
      · rfl
      · rename_i h1
        rw [if_pos]
        rcases h with h | ⟨x, hx, hl⟩ | ⟨k, hk, hl⟩
        · exact absurd h h0
        · rw [hx] at h1; exact absurd hl h1
        · rw [hk]; exact hl
  unfold solve denseSolve
  rw [this]
  exact ⟨rfl, rfl⟩

/-- C142. Whatever calls have been made before, the only exceptions are those of the library and those of the right hand side, for the
parameters of the call and a state of the size of the default one; a state that `Solve` gives has that size. -/
theorem ivp_exceptions (c : Setup R) (n m : Nat) (calls : List (Call R)) (tf : R) (v : Values R) :
    (∀ x, (solve c n m tf v (after c n m calls)).2 = .ok x → x.length = c.defaults.x0.length) ∧
    ∀ e, (solve c n m tf v (after c n m calls)).2 = .error (.err e) ∨ (denseSolve c n m tf v (after c n m calls)).2 = .error (.err e) →
      e = .throws ∨ ∃ t x, x.length = c.defaults.x0.length ∧ c.f t x (v.k.getD c.defaults.k) = .error e := by
  have hs := after_sized c n m calls
  exact ⟨(solve_known n m tf v hs).2.1, fun e h => h.elim ((solve_known n m tf v hs).2.2 e) ((denseSolve_known n m tf v hs).2 e)⟩

/-- C142. To give the default values is the same as to give none. -/
theorem ivp_defaults (c : Setup R) (n m : Nat) (s : State R) (tf : R) (v : Values R) :
    let w : Values R := ⟨some (v.t0.getD c.defaults.t0), some (v.x0.getD c.defaults.x0), some (v.k.getD c.defaults.k)⟩
    solve c n m tf w s = solve c n m tf v s ∧ denseSolve c n m tf w s = denseSolve c n m tf v s := by
  intro w
  have : sanitize c.defaults tf w = sanitize c.defaults tf v := rfl
  unfold solve denseSolve
  rw [this]
  exact ⟨rfl, rfl⟩

/-- C142. `DenseSolve` does what it does in a new problem, whatever calls have been made before. -/
theorem ivp_denseSolve_fresh (c : Setup R) (n m : Nat) (calls : List (Call R)) (tf : R) (v : Values R) :
    (denseSolve c n m tf v (after c n m calls)).2 = (denseSolve c n m tf v (fresh c)).2 := by
  unfold denseSolve
  cases sanitize c.defaults tf v with
  | error e => rfl
  | ok p =>
    dsimp only
    rw [reset_eq c p (after c n m calls) (fresh c)]

/-- C142. After a call that returned, `Solve` for other values or for an earlier time does what it does in a new problem. -/
theorem ivp_solve_fresh (c : Setup R) (hroot : ∀ x, 0 ≤ x → x ≤ 1 → c.root x ≤ 1) (ha : 0 ≤ c.accuracy) (hne : c.defaults.x0 ≠ [])
    (n m : Nat) (calls : List (Call R)) (tf tf' : R) (v v' : Values R) (x : List R)
    (h : (solve c n m tf' v' (after c n m calls)).2 = .ok x)
    (hd : v.t0.getD c.defaults.t0 ≠ v'.t0.getD c.defaults.t0 ∨ v.x0.getD c.defaults.x0 ≠ v'.x0.getD c.defaults.x0 ∨
      v.k.getD c.defaults.k ≠ v'.k.getD c.defaults.k ∨ tf < tf') :
    (solve c n m tf v (after c n m (calls ++ [.solve tf' v']))).2 = (solve c n m tf v (fresh c)).2 := by
  have hu : Usable c := ⟨hroot, ha⟩
  obtain ⟨i1, i2⟩ := after_inv hu hne n m calls
  obtain ⟨j1, -, j3⟩ := solve_spec hu hne n m tf' v' _ i1 i2
  obtain ⟨q1, -, q3, -⟩ := j3 x h
  rw [after_snoc]
  change (solve c n m tf v (solve c n m tf' v' (after c n m calls)).1).2 = _
  generalize (solve c n m tf' v' (after c n m calls)).1 = s at q1 q3 ⊢
  cases hp : sanitize c.defaults tf v with
  | error e => unfold solve; rw [hp]
  | ok p =>
    rw [solve_reset hp]
    obtain ⟨h1, -⟩ := sanitize_ok.1 hp
    obtain ⟨h2, -⟩ := sanitize_ok.1 q3
    rcases hd with hd | hd | hd | hd
    · left; rw [h1, h2]; exact fun he => hd (Problem.mk.inj he).1
    · left; rw [h1, h2]; exact fun he => hd (Problem.mk.inj he).2.1
    · left; rw [h1, h2]; exact fun he => hd (Problem.mk.inj he).2.2
    · right; rw [q1]; exact hd

/-- C142. `DenseSolve` agrees with `Solve`: when it returns, `Solve` for the same time and values in a new problem gives the state in
which the last piece ends, at that time, and every later call does what it does after that `Solve`. -/
theorem ivp_denseSolve_solve (c : Setup R) (hroot : ∀ x, 0 ≤ x → x ≤ 1 → c.root x ≤ 1) (ha : 0 ≤ c.accuracy) (hne : c.defaults.x0 ≠ [])
    (n m : Nat) (calls later : List (Call R)) (tf : R) (v : Values R) (d : List (Piece R))
    (h : (denseSolve c n m tf v (after c n m calls)).2 = .ok d) :
    (∃ p, d.getLast? = some p ∧ p.t1 = tf ∧ (solve c n m tf v (fresh c)).2 = .ok p.x1) ∧
      after c n m (calls ++ .denseSolve tf v :: later) = after c n m (.solve tf v :: later) := by
  have hu : Usable c := ⟨hroot, ha⟩
  obtain ⟨i1, i2⟩ := after_inv hu hne n m calls
  obtain ⟨p, knots, -, -, -, h4, ⟨h5, h6⟩, h7⟩ := (denseSolve_spec hu n m tf v _ i1 i2).2.2 d h
  have hs := denseSolve_solve h
  refine ⟨?_, ?_⟩
  · have hlast : d.getLast? = some (d.getLast h7) := List.getLast?_eq_some_getLast h7
    refine ⟨d.getLast h7, hlast, ?_⟩
    rw [List.getLast?_eq_getElem?] at hlast h4
    have hlt : d.length - 1 < d.length := (List.getElem?_eq_some_iff.1 hlast).1
    rw [← h5, Nat.add_sub_cancel] at h4
    have := (h6 (d.length - 1) _ _ _ hlast (List.getElem?_eq_getElem (by omega)) (by rw [Nat.sub_add_cancel (by omega)]; exact h4)).2.1
    obtain ⟨e1, e2⟩ := Prod.mk.inj this
    rw [hs, e2]
    exact ⟨e1, rfl⟩
  · unfold after
    rw [List.foldl_append, List.foldl_cons, List.foldl_cons]
    show List.foldl _ (denseSolve c n m tf v (after c n m calls)).1 later = List.foldl _ (solve c n m tf v (fresh c)).1 later
    rw [hs]

/-- C142. For a slope that does not change the state moves along it. -/
theorem ivp_constant (c : Setup R) (hroot : ∀ x, 0 ≤ x → x ≤ 1 → c.root x ≤ 1) (ha : 0 ≤ c.accuracy) (hne : c.defaults.x0 ≠ [])
    (n m : Nat) (calls : List (Call R)) (tf : R) (v : Values R) (x d : List R)
    (hf : ∀ t y, c.f t y (v.k.getD c.defaults.k) = .ok d)
    (h : (solve c n m tf v (after c n m calls)).2 = .ok x) :
    let x0 := v.x0.getD c.defaults.x0
    x = vector x0.length fun i => elem x0 i + (tf - v.t0.getD c.defaults.t0) * elem d i := by
  intro x0
  refine (ivp_solve_reaches c hroot ha hne n m calls tf v x h).induct
    (P := fun t y => y = vector x0.length fun i => elem x0 i + (t - v.t0.getD c.defaults.t0) * elem d i) ?_ ?_
  · rw [vector_congr (g' := elem x0) (fun i _ => by ring), vector_elem]
  · intro t y e k1 k2 k3 hP _ hs
    cases (hf _ _).symm.trans hs.first.1
    cases (hf _ _).symm.trans hs.second.1
    cases (hf _ _).symm.trans hs.third.1
    unfold kutta
    rw [hP, vector_length]
    apply vector_congr
    intro i hi
    rw [elem_vector _ hi]
    ring

/-- C142. A state in which the slope is zero at all times is not left. -/
theorem ivp_equilibrium (c : Setup R) (hroot : ∀ x, 0 ≤ x → x ≤ 1 → c.root x ≤ 1) (ha : 0 ≤ c.accuracy) (hne : c.defaults.x0 ≠ [])
    (n m : Nat) (calls : List (Call R)) (tf : R) (v : Values R) (x : List R)
    (hf : ∀ t, c.f t (v.x0.getD c.defaults.x0) (v.k.getD c.defaults.k) = .ok (vector (v.x0.getD c.defaults.x0).length fun _ => 0))
    (h : (solve c n m tf v (after c n m calls)).2 = .ok x) : x = v.x0.getD c.defaults.x0 := by
  refine (ivp_solve_reaches c hroot ha hne n m calls tf v x h).induct (P := fun _ y => y = v.x0.getD c.defaults.x0) rfl ?_
  intro t y e k1 k2 k3 hP _ hs
  subst hP
  cases (hf _).symm.trans hs.first.1
  have h2 := hs.second.1
  rw [vector_congr (g' := elem (v.x0.getD c.defaults.x0)) (fun i hi => by rw [elem_vector _ hi]; ring), vector_elem] at h2
  cases (hf _).symm.trans h2
  have h3 := hs.third.1
  rw [vector_congr (g' := elem (v.x0.getD c.defaults.x0)) (fun i hi => by rw [elem_vector _ hi]; ring), vector_elem] at h3
  cases (hf _).symm.trans h3
  unfold kutta
  rw [vector_congr (g' := elem (v.x0.getD c.defaults.x0)) (fun i hi => by rw [elem_vector _ hi]; ring), vector_elem]

/-- C142. What the right hand side conserves is conserved: a weighted sum of the elements whose slope is always zero keeps its value. -/
theorem ivp_conserves (c : Setup R) (hroot : ∀ x, 0 ≤ x → x ≤ 1 → c.root x ≤ 1) (ha : 0 ≤ c.accuracy) (hne : c.defaults.x0 ≠ [])
    (n m : Nat) (calls : List (Call R)) (tf : R) (v : Values R) (x : List R) (w : Nat → R)
    (hf : ∀ t y d, y.length = c.defaults.x0.length → c.f t y (v.k.getD c.defaults.k) = .ok d →
      ((List.range y.length).map fun i => w i * elem d i).sum = 0)
    (h : (solve c n m tf v (after c n m calls)).2 = .ok x) :
    let x0 := v.x0.getD c.defaults.x0
    x.length = x0.length ∧
      ((List.range x0.length).map fun i => w i * elem x i).sum = ((List.range x0.length).map fun i => w i * elem x0 i).sum := by
  intro x0
  have hx0 : x0.length = c.defaults.x0.length := by
    by_contra hl
    have hv : ∃ y, v.x0 = some y ∧ y.length ≠ c.defaults.x0.length := by
      cases hv : v.x0 with
      | none => exact absurd (by show (v.x0.getD _).length = _; rw [hv]; rfl) hl
      | some y => exact ⟨y, rfl, fun hy => hl (by show (v.x0.getD _).length = _; rw [hv]; exact hy)⟩
    rw [(ivp_refuses c n m _ tf v (.inr (.inl hv))).1] at h
    cases h
  refine (ivp_solve_reaches c hroot ha hne n m calls tf v x h).induct (P := fun _ y => y.length = x0.length ∧
    ((List.range x0.length).map fun i => w i * elem y i).sum = ((List.range x0.length).map fun i => w i * elem x0 i).sum) ⟨rfl, rfl⟩ ?_
  rintro t y e k1 k2 k3 ⟨hl, hP⟩ - hs
  refine ⟨(kutta_length _ _ _ _ _).trans hl, ?_⟩
  have hy := hl.trans hx0
  have z1 := hf _ _ _ hy hs.first.1
  have z2 := hf _ _ _ ((vector_length _ _).trans hy) hs.second.1
  have z3 := hf _ _ _ ((vector_length _ _).trans hy) hs.third.1
  rw [vector_length] at z2 z3
  rw [← hP, ← hl]
  have key : ∀ l : List Nat, (∀ i ∈ l, i < y.length) → (l.map fun i => w i * elem (kutta y e k1 k2 k3) i).sum =
      (l.map fun i => w i * elem y i).sum + e / 6 * ((l.map fun i => w i * elem k1 i).sum +
        4 * (l.map fun i => w i * elem k2 i).sum + (l.map fun i => w i * elem k3 i).sum) := by
    intro l
    induction l with
    | nil => simp
    | cons i l ih =>
      intro hm
      simp only [List.map_cons, List.sum_cons]
      rw [ih fun j hj => hm j (List.mem_cons_of_mem _ hj)]
      unfold kutta
      rw [elem_vector _ (hm i List.mem_cons_self)]
      ring
  rw [key _ fun i hi => List.mem_range.1 hi, z1, z2, z3]
  ring

/-- C142. A state without elements stays one, and `DenseSolve` throws for it. -/
theorem ivp_empty (c : Setup R) (he : c.defaults.x0 = []) (n m : Nat) (calls : List (Call R)) (tf : R) (v : Values R) :
    (∀ x, (solve c n m tf v (after c n m calls)).2 = .ok x → x = []) ∧
      (denseSolve c n m tf v (after c n m calls)).2 = .error (.err .throws) := by
  have hs : (after c n m calls).state = [] := after_induct c n m (P := fun s => s.state = []) he calls fun a _ s hs => by
    cases a with
    | solve tf v => exact (solve_empty_state he n m tf v hs).1
    | denseSolve tf v => exact (denseSolve_empty_state he n m tf v hs).1
  exact ⟨(solve_empty_state he n m tf v hs).2, (denseSolve_empty_state he n m tf v hs).2⟩

end

/-- Two tanks that exchange what they hold, with a parameter for how fast. -/
def tanks : Setup ℚ where
  f _ x k := .ok [elem k 0 * (elem x 1 - elem x 0), elem k 0 * (elem x 0 - elem x 1)]
  root := stepRoot
  defaults := ⟨0, [3, 1], [1 / 4]⟩
  initialStep := 1 / 2
  maxStep := 1 / 2
  accuracy := 1 / 10

/-- No values given. -/
def nothing : Values ℚ := ⟨none, none, none⟩

example : (solve tanks 9 9 1 nothing (after tanks 9 9 [.solve (1 / 2) nothing])).2 = .ok [384313 / 147456, 205511 / 147456] := by
  decide +kernel

example : Reaches (fun _ x => .ok [1 / 4 * (elem x 1 - elem x 0), 1 / 4 * (elem x 0 - elem x 1)]) (Forward (1 / 2)) (0 : ℚ) [3, 1] 1
    [384313 / 147456, 205511 / 147456] :=
  ivp_solve_reaches tanks stepRoot_ok (by decide +kernel) (by decide +kernel) 9 9 [.solve (1 / 2) nothing] 1 nothing _ (by decide +kernel)

/-- Another parameter and another initial state, after a call that threw. -/
example : ∃ x : List ℚ, x.length = 2 ∧ elem x 0 + elem x 1 = 7 ∧
    (solve tanks 9 9 1 ⟨none, some [5, 2], some [1 / 8]⟩ (after tanks 9 9 [.solve (-1) nothing])).2 = .ok x := by
  have he : (match (solve tanks 9 9 1 ⟨none, some [5, 2], some [1 / 8]⟩ (after tanks 9 9 [.solve (-1) nothing])).2 with
    | .ok _ => true | .error _ => false) = true := by decide +kernel
  split at he
  · rename_i x hx
    obtain ⟨h1, h2⟩ := ivp_conserves tanks stepRoot_ok (by decide +kernel) (by decide +kernel) 9 9 [.solve (-1) nothing] 1
      ⟨none, some [5, 2], some [1 / 8]⟩ x (fun _ => 1) (fun t y d hy hd => by
        cases hd
        have hy : y.length = 2 := hy
        rw [hy]
        simp only [List.range_succ, List.range_zero, List.nil_append, List.cons_append, List.map_cons, List.map_nil, List.sum_cons,
          List.sum_nil, elem, List.getD_cons_zero, List.getD_cons_succ]
        ring) hx
    refine ⟨x, h1, ?_, hx⟩
    simp only [Option.getD_some, List.length_cons, List.length_nil, List.range_succ, List.range_zero, List.nil_append, List.cons_append,
      List.map_cons, List.map_nil, List.sum_cons, List.sum_nil, elem, List.getD_cons_zero, List.getD_cons_succ] at h2
    simp only [elem]
    linarith
  · cases he

/-- The hypotheses of `ivp_solve_accurate` and `ivp_denseSolve_joins`: the dense output has two pieces. -/
theorem tanks_dense : Returned tanks 9 9 (fresh tanks) (.denseSolve 1 nothing) := by
  have : (match (denseSolve tanks 9 9 1 nothing (fresh tanks)).2 with | .ok d => decide (d.length = 2) | .error _ => false) = true := by
    decide +kernel
  split at this
  · rename_i d hd; exact ⟨d, hd⟩
  · cases this

/-- The hypotheses of `ivp_denseSolve_solve`. -/
example : ∃ p : Piece ℚ, p.t1 = 1 ∧ (solve tanks 9 9 1 nothing (fresh tanks)).2 = .ok p.x1 := by
  obtain ⟨d, hd⟩ := tanks_dense
  obtain ⟨p, -, h⟩ := (ivp_denseSolve_solve tanks stepRoot_ok (by decide +kernel) (by decide +kernel) 9 9 [] [] 1 nothing d hd).1
  exact ⟨p, h⟩

example : Reaches (fun _ x => .ok [1 / 4 * (elem x 1 - elem x 0), 1 / 4 * (elem x 0 - elem x 1)]) (Accurate (1 / 2) (min (1 / 10) (1 / 10)))
    (0 : ℚ) [3, 1] 1 [384313 / 147456, 205511 / 147456] := by
  refine ivp_solve_accurate tanks stepRoot_ok (by decide +kernel) (by decide +kernel) 9 9 [.denseSolve 1 nothing] ?_ 1 nothing _
    (by decide +kernel)
  intro pre a post h
  cases pre with
  | cons b pre => simp at h
  | nil =>
    simp only [List.nil_append, List.cons.injEq] at h
    rw [← h.1]
    exact tanks_dense

/-- The hypotheses of `ivp_solve_fresh`: an earlier time. -/
example : (solve tanks 9 9 (1 / 2) nothing (after tanks 9 9 ([] ++ [.solve 1 nothing]))).2 = (solve tanks 9 9 (1 / 2) nothing (fresh tanks)).2 :=
  ivp_solve_fresh tanks stepRoot_ok (by decide +kernel) (by decide +kernel) 9 9 [] (1 / 2) 1 nothing nothing [384313 / 147456, 205511 / 147456]
    (by decide +kernel) (.inr (.inr (.inr (by norm_num))))

/-- Equal tanks are an equilibrium. -/
example : (solve tanks 9 9 1 ⟨none, some [2, 2], none⟩ (fresh tanks)).2 = .ok [2, 2] := by decide +kernel

example (x : List ℚ) (h : (solve tanks 9 9 1 ⟨none, some [2, 2], none⟩ (fresh tanks)).2 = .ok x) : x = [2, 2] :=
  ivp_equilibrium tanks stepRoot_ok (by decide +kernel) (by decide +kernel) 9 9 [] 1 ⟨none, some [2, 2], none⟩ x (fun _ => by
    show Except.ok [(1 / 4 : ℚ) * (2 - 2), 1 / 4 * (2 - 2)] = .ok [0, 0]
    norm_num) h

/-- A slope of one that is not defined for some times. -/
def gapSetup : Setup ℚ where
  f t _ _ := if 3 / 4 < t ∧ t < 4 / 5 then .error .throws else .ok [1]
  root := stepRoot
  defaults := ⟨0, [0], []⟩
  initialStep := 1 / 2
  maxStep := 1 / 2
  accuracy := 1 / 10

/-- C142: it depends on earlier calls that threw whether `Solve` throws.  A new problem gives the state at the time 1, in steps that avoid
the times without a slope.  After a call for such a time has thrown the context is left there, and the same call throws. -/
theorem ivp_after_exception :
    (solve gapSetup 9 9 1 nothing (fresh gapSetup)).2 = .ok [1] ∧
    (solve gapSetup 9 9 (79 / 100) nothing (fresh gapSetup)).2 = .error (.err .throws) ∧
    (solve gapSetup 9 9 1 nothing (after gapSetup 9 9 [.solve (79 / 100) nothing])).2 = .error (.err .throws) := by decide +kernel

/-- Constant slopes, from another initial time. -/
def drift : Setup ℚ where
  f _ _ k := .ok [elem k 0, 2]
  root := stepRoot
  defaults := ⟨0, [0, 1], [3]⟩
  initialStep := 1
  maxStep := 1
  accuracy := 1 / 10

example : (solve drift 9 9 4 ⟨some 1, none, none⟩ (fresh drift)).2 = .ok [9, 7] := by decide +kernel

example (x : List ℚ) (h : (solve drift 9 9 4 ⟨some 1, none, none⟩ (fresh drift)).2 = .ok x) :
    x = vector 2 fun i => elem [0, 1] i + (4 - 1) * elem [3, 2] i :=
  ivp_constant drift stepRoot_ok (by decide +kernel) (by decide +kernel) 9 9 [] 4 ⟨some 1, none, none⟩ x [3, 2] (fun _ _ => rfl) h

/-- The exception of a right hand side without a slope comes through, also after other calls. -/
example (e : Err) (h : (solve gapSetup 9 9 (79 / 100) nothing (after gapSetup 9 9 [.solve 1 nothing])).2 = .error (.err e)) : e = .throws := by
  rcases (ivp_exceptions gapSetup 9 9 [.solve 1 nothing] (79 / 100) nothing).2 e (.inl h) with h | ⟨t, x, -, h⟩
  · exact h
  · dsimp only [gapSetup] at h
    split at h
    · cases h; rfl
    · cases h

end Maliput.Props
