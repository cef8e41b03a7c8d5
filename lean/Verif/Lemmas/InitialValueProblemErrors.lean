import Verif.Lemmas.InitialValueProblemRuns

set_option autoImplicit false
set_option linter.unusedSectionVars false

/-! Lemmas for initial value problems: where exceptions come from. -/
namespace Maliput.Ivp

open Maliput Piecewise Spec
open Maliput.RouteGraph (Stop)

variable {R : Type} [Field R] [LinearOrder R] [IsStrictOrderedRing R] {c : Setup R} {s s' : State R}

/-- An exception of the library, or of the right hand side for these parameters and a state of this size. -/
def Known (c : Setup R) (size : Nat) (k : List R) (e : Err) : Prop :=
  e = .throws ∨ ∃ t x, x.length = size ∧ c.f t x k = .error e

/-- No exception but known ones. -/
def Raises {α : Type} (c : Setup R) (s : State R) (r : Except Stop α) : Prop :=
  ∀ e, r = .error (.err e) → Known c s.state.length s.k e

theorem slope_known {e : Err} (h : slope c.f s = .error e) : Known c s.state.length s.k e := by
  unfold slope at h
  cases hf : c.f s.time s.state s.k with
  | error e' =>
    rw [hf] at h
    cases h
    exact .inr ⟨_, _, rfl, hf⟩
  | ok d =>
    rw [hf] at h
    simp only [bind, Except.bind, throwUnless, pure, Except.pure] at h
    by_cases hd : d.length = s.state.length
    · simp only [hd, decide_true, if_true] at h; cases h
    · simp only [hd, decide_false, Bool.false_eq_true, if_false] at h; cases h; exact .inl rfl

theorem Known.of {e : Err} (h : Known c s'.state.length s'.k e) (hf : Frame s s') : Known c s.state.length s.k e := by
  rw [hf.len, hf.k] at h; exact h

theorem doStep_known {h : R} {e : Err} (he : (doStep c.f s h).2 = .error e) : Known c s.state.length s.k e := by
  have hf := (doStep_spec c s h).1
  unfold doStep at he hf
  cases h0 : slope c.f s with
  | error e0 => rw [h0] at he; cases he; exact slope_known h0
  | ok d0 =>
    rw [h0] at he hf
    dsimp only at he hf
    cases ha : slope c.f { s with time := s.time + h / 2, state := plus s.state (h / 2) d0 } with
    | error e0 => rw [ha] at he hf; cases he; exact (slope_known ha).of hf
    | ok da =>
      rw [ha] at he hf
      dsimp only at he hf
      cases hb : slope c.f { s with time := s.time + h, state := plus (plus s.state (-h) d0) (2 * h) da } with
      | error e0 => rw [hb] at he hf; cases he; exact (slope_known hb).of hf
      | ok db => rw [hb] at he; cases he

theorem record_known {d : List (Piece R)} {p : Piece R} {e : Err} (h : hermite p >>= concatenate d = .error e) : e = .throws := by
  unfold hermite concatenate at h
  simp only [bind, Except.bind, throwUnless, pure, Except.pure] at h
  by_cases hc : p.t0 < p.t1 ∧ ¬ p.t1 - p.t0 < epsilonTime
  · simp only [hc, not_false_eq_true, and_self, decide_true, if_true] at h
    split at h
    · cases h
    · split at h
      · rename_i heq
        split at heq
        · cases heq
        · cases heq; cases h; rfl
      · cases h
  · simp only [hc, decide_false, Bool.false_eq_true, if_false] at h
    cases h; rfl

/-- A recorded step can be dropped. -/
theorem record_ne {d d' : List (Piece R)} {p : Piece R} (h : hermite p >>= concatenate d = .ok d') : d' ≠ [] := by
  unfold hermite concatenate at h
  simp only [bind, Except.bind, throwUnless, pure, Except.pure] at h
  by_cases hc : p.t0 < p.t1 ∧ ¬ p.t1 - p.t0 < epsilonTime
  · simp only [hc, not_false_eq_true, and_self, decide_true, if_true] at h
    split at h
    · cases h; simp
    · split at h
      · cases h
      · cases h; simp
  · simp only [hc, decide_false, Bool.false_eq_true, if_false] at h
    cases h

theorem step_known (h : R) : (∀ e, (step c.f s h).2 = .error e → Known c s.state.length s.k e) ∧
    (∀ r, (step c.f s h).2 = .ok r → (step c.f s h).1.dense ≠ some []) := by
  obtain ⟨d1, d2, d3, -⟩ := doStep_spec c s h
  have dk := fun e => doStep_known (c := c) (s := s) (h := h) (e := e)
  unfold step
  cases hd : s.dense with
  | none =>
    refine ⟨dk, fun r _ => ?_⟩
    dsimp only
    rw [d3, hd]; simp
  | some d =>
    dsimp only
    cases h0 : slope c.f s with
    | error e0 => exact ⟨fun e he => (by cases he; exact slope_known h0), nofun⟩
    | ok k0 =>
      dsimp only
      generalize doStep c.f s h = r at d1 d2 d3 dk ⊢
      obtain ⟨s', r⟩ := r
      cases r with
      | error e0 => exact ⟨fun e he => (by cases he; exact dk _ rfl), nofun⟩
      | ok err =>
        dsimp only at d1 d2 d3 dk ⊢
        cases h1 : slope c.f s' with
        | error e0 => exact ⟨fun e he => (by cases he; exact (slope_known h1).of d1), nofun⟩
        | ok kd =>
          dsimp only
          split
          · rename_i e heq
            exact ⟨fun e' he => (by cases he; exact .inl (record_known heq)), nofun⟩
          · rename_i d' heq
            refine ⟨nofun, fun r _ => ?_⟩
            have := record_ne heq
            simpa using this

theorem calcAdjusted_known {root : R → R} {accuracy maxStep t err taken : R} {atMin : Bool} {e : Err}
    (h : Ode.calcAdjusted root accuracy maxStep t err taken atMin = .error e) : e = .throws := by
  unfold Ode.calcAdjusted at h
  generalize (if err = 0 then 5 * taken else 9 / 10 * taken * root (accuracy / err)) = guess at h
  dsimp only at h
  generalize (if guess > taken then false else atMin) = a at h
  generalize (if guess > taken ∧ guess < 6 / 5 * taken then taken else guess) = g at h
  split at h
  · cases h
  · generalize (if g < taken then if err ≤ accuracy then taken else min g (9 / 10 * taken) else g) = g' at h
    generalize min (max (min g' (5 * taken)) (1 / 10 * taken)) maxStep = w at h
    generalize max w (Ode.workingMinimum t) = w' at h
    split at h
    · cases h; rfl
    · split at h <;> cases h

theorem attempts_known (hmax : R) : ∀ (n : Nat) (s : State R) (attempt : R) (atMin : Bool), Raises c s (attempts c hmax n s attempt atMin).2
  | 0, s, attempt, atMin => fun e he => by cases he
  | n + 1, s, attempt, atMin => by
    obtain ⟨sf, -, -⟩ := step_spec c s (Ode.stepSize c.maxStep hmax attempt)
    obtain ⟨sk, sd⟩ := step_known (c := c) (s := s) (Ode.stepSize c.maxStep hmax attempt)
    unfold attempts
    dsimp only
    generalize Ode.stepSize c.maxStep hmax attempt = h at sf sk sd ⊢
    generalize step c.f s h = r at sf sk sd ⊢
    obtain ⟨s', r⟩ := r
    cases r with
    | error e0 => intro e he; cases he; exact sk _ rfl
    | ok err =>
      dsimp only at sf sk sd ⊢
      split
      · rename_i e0 heq
        intro e he; cases he; exact .inl (calcAdjusted_known heq)
      · exact fun e he => by cases he
      · rename_i next atMin' heq
        cases hd : dropSegment s'.dense with
        | error e0 =>
          exfalso
          cases hd' : s'.dense with
          | none => rw [hd'] at hd; cases hd
          | some d =>
            rw [hd'] at hd
            have hz : d ≠ [] := fun hz => sd err rfl (by rw [hd', hz])
            simp [dropSegment, hz] at hd
        | ok d =>
          intro e he
          have := attempts_known hmax n { s' with time := s.time, state := s.state, dense := d } next atMin' e he
          dsimp only at this
          rw [sf.k] at this
          exact this

theorem integrateNoFurther_known (n : Nat) (s : State R) (boundary : R) : Raises c s (integrateNoFurther c n s boundary).2 := by
  unfold integrateNoFurther
  split
  · exact fun e he => by cases he; exact .inl rfl
  · split
    · exact fun e he => by cases he; exact .inl rfl
    · split
      · exact fun e he => by cases he
      · dsimp only
        generalize (if s.time + c.maxStep < boundary then s.time + c.maxStep else boundary) = target
        split
        · exact fun e he => by cases he; exact .inl rfl
        · have := attempts_known (c := c) (target - s.time) n s (s.ideal.getD c.initialStep) false
          split
          · rename_i s' e0 heq
            rw [heq] at this
            exact fun e he => this e (by cases he; rfl)
          · exact fun e he => by cases he

/-- The size of the state and the parameters stay. -/
def Keeps (s s' : State R) : Prop := s'.k = s.k ∧ s'.state.length = s.state.length

theorem attempts_keeps (hmax : R) : ∀ (n : Nat) (s : State R) (attempt : R) (atMin : Bool), Keeps s (attempts c hmax n s attempt atMin).1
  | 0, s, attempt, atMin => ⟨rfl, rfl⟩
  | n + 1, s, attempt, atMin => by
    obtain ⟨sf, -, -⟩ := step_spec c s (Ode.stepSize c.maxStep hmax attempt)
    unfold attempts
    dsimp only
    generalize Ode.stepSize c.maxStep hmax attempt = h at sf ⊢
    generalize step c.f s h = r at sf ⊢
    obtain ⟨s', r⟩ := r
    dsimp only at sf
    cases r with
    | error e0 => exact ⟨sf.k, sf.len⟩
    | ok err =>
      dsimp only
      split
      · exact ⟨sf.k, sf.len⟩
      · exact ⟨sf.k, sf.len⟩
      · rename_i next atMin' heq
        split
        · exact ⟨sf.k, rfl⟩
        · rename_i d hd
          have := attempts_keeps hmax n { s' with time := s.time, state := s.state, dense := d } next atMin'
          exact ⟨this.1.trans sf.k, this.2⟩

theorem integrateNoFurther_keeps (n : Nat) (s : State R) (boundary : R) : Keeps s (integrateNoFurther c n s boundary).1 := by
  unfold integrateNoFurther
  split
  · exact ⟨rfl, rfl⟩
  · split
    · exact ⟨rfl, rfl⟩
    · split
      · exact ⟨rfl, rfl⟩
      · dsimp only
        generalize (if s.time + c.maxStep < boundary then s.time + c.maxStep else boundary) = target
        split
        · exact ⟨rfl, rfl⟩
        · have := attempts_keeps (c := c) (target - s.time) n s (s.ideal.getD c.initialStep) false
          split
          · rename_i s' e0 heq
            rw [heq] at this; exact this
          · rename_i s' full heq
            rw [heq] at this
            dsimp only
            split
            · exact this
            · exact this

theorem integrateTo_known (n : Nat) (tf : R) : ∀ (m : Nat) (s : State R), Raises c s (integrateTo c n tf m s).2
  | 0, s => fun e he => by cases he
  | m + 1, s => by
    have h1 := integrateNoFurther_known (c := c) n s (min tf (s.time + c.maxStep))
    have h2 := integrateNoFurther_keeps (c := c) n s (min tf (s.time + c.maxStep))
    unfold integrateTo
    generalize integrateNoFurther c n s (min tf (s.time + c.maxStep)) = r at h1 h2 ⊢
    obtain ⟨s', r⟩ := r
    cases r with
    | error e0 => exact fun e he => h1 e (by cases he; rfl)
    | ok u =>
      dsimp only
      split
      · have := integrateTo_known n tf m s'
        intro e he
        have := this e he
        rw [h2.1, h2.2] at this
        exact this
      · exact fun e he => by cases he

/-- The context has the size of the default state, and the parameters of the current values. -/
structure Sized (c : Setup R) (s : State R) : Prop where
  len : s.state.length = c.defaults.x0.length
  k : s.k = s.current.k

theorem integrateTo_frame (n : Nat) (tf : R) : ∀ (m : Nat) (s : State R),
    Keeps s (integrateTo c n tf m s).1 ∧ (integrateTo c n tf m s).1.current = s.current := by
  have attemptsC : ∀ (hmax : R) (n : Nat) (s : State R) (attempt : R) (atMin : Bool),
      (attempts c hmax n s attempt atMin).1.current = s.current := by
    intro hmax n
    induction n with
    | zero => intros; rfl
    | succ n ih =>
      intro s attempt atMin
      obtain ⟨sf, -, -⟩ := step_spec c s (Ode.stepSize c.maxStep hmax attempt)
      unfold attempts
      dsimp only
      generalize Ode.stepSize c.maxStep hmax attempt = h at sf ⊢
      generalize step c.f s h = r at sf ⊢
      obtain ⟨s', r⟩ := r
      dsimp only at sf
      cases r with
      | error e0 => exact sf.current
      | ok err =>
        dsimp only
        split
        · exact sf.current
        · exact sf.current
        · split
          · exact sf.current
          · rw [ih]; exact sf.current
  have noFurtherC : ∀ (s : State R) (boundary : R), (integrateNoFurther c n s boundary).1.current = s.current := by
    intro s boundary
    unfold integrateNoFurther
    split
    · rfl
    · split
      · rfl
      · split
        · rfl
        · dsimp only
          generalize (if s.time + c.maxStep < boundary then s.time + c.maxStep else boundary) = target
          split
          · rfl
          · have := attemptsC (target - s.time) n s (s.ideal.getD c.initialStep) false
            split
            · rename_i s' e0 heq
              rw [heq] at this; exact this
            · rename_i s' full heq
              rw [heq] at this
              dsimp only
              split
              · exact this
              · exact this
  intro m
  induction m with
  | zero => exact fun s => ⟨⟨rfl, rfl⟩, rfl⟩
  | succ m ih =>
    intro s
    have h1 := noFurtherC s (min tf (s.time + c.maxStep))
    have h2 := integrateNoFurther_keeps (c := c) n s (min tf (s.time + c.maxStep))
    unfold integrateTo
    generalize integrateNoFurther c n s (min tf (s.time + c.maxStep)) = r at h1 h2 ⊢
    obtain ⟨s', r⟩ := r
    cases r with
    | error e0 => exact ⟨h2, h1⟩
    | ok u =>
      dsimp only
      split
      · obtain ⟨⟨j1, j2⟩, j3⟩ := ih s'
        exact ⟨⟨j1.trans h2.1, j2.trans h2.2⟩, j3.trans h1⟩
      · exact ⟨h2, h1⟩

theorem setUp_frame (s : State R) : (setUp c s).1.state = s.state ∧ (setUp c s).1.k = s.k ∧ (setUp c s).1.current = s.current ∧
    ∀ e, (setUp c s).2 = .error e → e = .err .throws := by
  rcases setUp_spec s c with ⟨h, -⟩ | ⟨h, -⟩ <;> rw [h]
  · exact ⟨rfl, rfl, rfl, fun e he => by cases he; rfl⟩
  · exact ⟨rfl, rfl, rfl, nofun⟩

theorem sanitize_error {tf : R} {v : Values R} {d : Problem R} {e : Err} (h : sanitize d tf v = .error e) : e = .throws := by
  unfold sanitize at h
  dsimp only at h
  split at h
  · cases h; rfl
  · split at h
    · cases h; rfl
    · split at h
      · cases h; rfl
      · cases h

theorem solve_known (n m : Nat) (tf : R) (v : Values R) (hs : Sized c s) : Sized c (solve c n m tf v s).1 ∧
    (∀ x, (solve c n m tf v s).2 = .ok x → x.length = c.defaults.x0.length) ∧
    ∀ e, (solve c n m tf v s).2 = .error (.err e) → Known c c.defaults.x0.length (v.k.getD c.defaults.k) e := by
  unfold solve
  cases hp : sanitize c.defaults tf v with
  | error e0 =>
    refine ⟨hs, nofun, fun e he => ?_⟩
    cases he
    exact .inl (sanitize_error hp)
  | ok p =>
    obtain ⟨hpe, -, hl, -⟩ := sanitize_ok.1 hp
    have h1 : Sized c (resetIfNecessary c tf p s) ∧ (resetIfNecessary c tf p s).current = p := by
      unfold resetIfNecessary
      split
      · exact ⟨⟨hl, rfl⟩, rfl⟩
      · rename_i h
        simp only [not_or, ne_eq, not_not] at h
        exact ⟨hs, h.1.symm⟩
    dsimp only
    generalize resetIfNecessary c tf p s = s1 at h1 ⊢
    have h2 : Sized c (if s1.initialized = false then setUp c s1 else (s1, .ok ())).1 ∧
        (if s1.initialized = false then setUp c s1 else (s1, .ok ())).1.current = p ∧
        ∀ e, (if s1.initialized = false then setUp c s1 else (s1, .ok ())).2 = .error e → e = .err .throws := by
      split
      · obtain ⟨f1, f2, f3, f4⟩ := setUp_frame (c := c) s1
        exact ⟨⟨by rw [f1]; exact h1.1.len, by rw [f2, f3]; exact h1.1.k⟩, f3.trans h1.2, f4⟩
      · exact ⟨h1.1, h1.2, nofun⟩
    generalize (if s1.initialized = false then setUp c s1 else (s1, .ok ())) = r at h2 ⊢
    obtain ⟨s2, r⟩ := r
    cases r with
    | error e0 =>
      refine ⟨h2.1, nofun, fun e he => ?_⟩
      cases he
      cases h2.2.2 _ rfl
      exact .inl rfl
    | ok u =>
      obtain ⟨g1, g2, -⟩ := h2
      dsimp only at g1 g2 ⊢
      obtain ⟨⟨f1, f2⟩, f3⟩ := integrateTo_frame (c := c) n tf m s2
      have f4 := integrateTo_known (c := c) n tf m s2
      generalize integrateTo c n tf m s2 = r at f1 f2 f3 f4 ⊢
      obtain ⟨s3, r⟩ := r
      dsimp only at f1 f2 f3 f4
      have hz : Sized c s3 := ⟨f2.trans g1.len, by rw [f1, f3]; exact g1.k⟩
      cases r with
      | error e0 =>
        refine ⟨hz, nofun, fun e he => ?_⟩
        have := f4 e (by cases he; rfl)
        rw [g1.len, g1.k, g2, hpe] at this
        exact this
      | ok u => exact ⟨hz, fun x hx => by cases hx; exact hz.len, nofun⟩

theorem denseSolve_known (n m : Nat) (tf : R) (v : Values R) (hs : Sized c s) : Sized c (denseSolve c n m tf v s).1 ∧
    ∀ e, (denseSolve c n m tf v s).2 = .error (.err e) → Known c c.defaults.x0.length (v.k.getD c.defaults.k) e := by
  unfold denseSolve
  cases hp : sanitize c.defaults tf v with
  | error e0 =>
    refine ⟨hs, fun e he => ?_⟩
    cases he
    exact .inl (sanitize_error hp)
  | ok p =>
    obtain ⟨hpe, -, hl, -⟩ := sanitize_ok.1 hp
    obtain ⟨f1, f2, f3, f4⟩ := setUp_frame (c := c) (reset c p s)
    dsimp only
    generalize setUp c (reset c p s) = r at f1 f2 f3 f4 ⊢
    obtain ⟨s2, r⟩ := r
    dsimp only at f1 f2 f3 f4
    have g1 : Sized c s2 := ⟨by rw [f1]; exact hl, by rw [f2, f3]; rfl⟩
    cases r with
    | error e0 =>
      refine ⟨g1, fun e he => ?_⟩
      cases he
      cases f4 _ rfl
      exact .inl rfl
    | ok u =>
      dsimp only
      split
      · exact ⟨g1, fun e he => by cases he; exact .inl rfl⟩
      · obtain ⟨⟨j1, j2⟩, j3⟩ := integrateTo_frame (c := c) n tf m { s2 with dense := some [] }
        have j4 := integrateTo_known (c := c) n tf m { s2 with dense := some [] }
        generalize integrateTo c n tf m { s2 with dense := some [] } = r at j1 j2 j3 j4 ⊢
        obtain ⟨s3, r⟩ := r
        dsimp only at j1 j2 j3 j4
        have hz : Sized c s3 := ⟨j2.trans g1.len, by rw [j1, j3]; exact g1.k⟩
        cases r with
        | error e0 =>
          refine ⟨hz, fun e he => ?_⟩
          have := j4 e (by cases he; rfl)
          dsimp only at this
          rw [g1.len, f2] at this
          have hk : (reset c p s).k = v.k.getD c.defaults.k := by show p.k = _; rw [hpe]
          rw [hk] at this
          exact this
        | ok u =>
          dsimp only
          split
          · exact ⟨hz, fun e he => by cases he; exact .inl rfl⟩
          · refine ⟨⟨hz.1, hz.2⟩, fun e he => ?_⟩
            dsimp only at he
            split at he
            · cases he; exact .inl rfl
            · cases he

theorem after_sized (c : Setup R) (n m : Nat) (calls : List (Call R)) : Sized c (after c n m calls) :=
  after_induct c n m (P := Sized c) ⟨rfl, rfl⟩ calls fun a _ s hs => by
    cases a with
    | solve tf v => exact (solve_known n m tf v hs).1
    | denseSolve tf v => exact (denseSolve_known n m tf v hs).1

end Maliput.Ivp
