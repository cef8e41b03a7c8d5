import Verif.Lemmas.IntegratorTermination

set_option autoImplicit false
set_option linter.unusedSectionVars false

/-! Lemmas for the integrators: calls and sequences of calls. -/
namespace Maliput.Ode

open Maliput Piecewise Spec
open Maliput.RouteGraph (Stop)

variable {R κ : Type} [Field R] [LinearOrder R] [IsStrictOrderedRing R] [DecidableEq κ]
variable {c : Setup R κ} {s s' : State R κ}

/-- The settings that `Initialize` accepts. -/
structure Accepted (c : Setup R κ) : Prop where
  initial : 0 ≤ c.initialStep
  max : c.initialStep ≤ c.maxStep

theorem reset_eq (c : Setup R κ) (k : κ) (s s' : State R κ) : reset c k s = reset c k s' := rfl

theorem Spec.Reaches.le {f : R → R → R} {b t0 x0 t x : R} (h : Reaches f (Forward b) t0 x0 t x) : t0 ≤ t :=
  h.induct (P := fun t _ => t0 ≤ t) (le_refl _) fun t _ h hp hh => by have := hh.1; linarith

/-- What follows the run of the integrator. -/
def finish (r : State R κ × Except Stop Unit) : State R κ × Except Stop R :=
  match r with
  | (s, .error e) => (s, .error e)
  | (s, .ok ()) => (s, .ok s.state)

/-- `solve` runs the integrator in a state that the numbers of attempts and steps do not matter for. -/
theorem solve_eq (hi : Inv c s) (hv : Accepted c) {tf : R} (h0 : c.t0 ≤ tf) (k : κ) :
    ∃ s2, Inv c s2 ∧ s2.initialized = true ∧ s2.k = k ∧ s2.time ≤ tf ∧ c.t0 ≤ s2.time ∧ (s.dense = none → s2.dense = none) ∧
      (k = s.current → s.time ≤ tf → s2.time = s.time ∧ s2.state = s.state) ∧
      ∀ n m, solve c n m tf k s = finish (integrateTo c n tf m s2) := by
  obtain ⟨p1, p2, p3, -⟩ := prepared c tf k s hi h0
  have p5 : s.dense = none → (if k ≠ s.current ∨ tf < s.time then reset c k s else s).dense = none := by
    intro h; split
    · rfl
    · exact h
  have p6 : k = s.current → s.time ≤ tf → (if k ≠ s.current ∨ tf < s.time then reset c k s else s) = s := by
    intro h h'; rw [if_neg (by simp [h, h'])]
  unfold solve
  simp only [if_neg (not_lt.2 h0)]
  generalize (if k ≠ s.current ∨ tf < s.time then reset c k s else s) = s1 at p1 p2 p3 p5 p6 ⊢
  cases hin : s1.initialized with
  | true =>
    exact ⟨s1, p1, hin, p2, p3, p1.reach.le, p5, fun a b => by rw [p6 a b]; exact ⟨rfl, rfl⟩, fun n m => by
      simp only [Bool.true_eq_false, if_false]; rfl⟩
  | false =>
    rcases setUp_spec s1 c with ⟨-, h⟩ | ⟨h, h1, h2⟩
    · exact absurd ⟨hv.initial, hv.max⟩ h
    · exact ⟨_, p1.setUp h1 h2, rfl, p2, p3, p1.reach.le, p5, fun a b => by rw [← p6 a b]; exact ⟨rfl, rfl⟩, fun n m => by
        simp only [if_true, h]; rfl⟩

theorem Inv.dense (hi : Inv c s) (d : Option (PP R)) : Inv c { s with dense := d } := ⟨hi.same, hi.reach, hi.ideal, hi.init⟩

theorem denseSolve_eq (hv : Accepted c) {tf : R} (h0 : c.t0 ≤ tf) (k : κ) (s : State R κ) :
    ∃ s2, Inv c s2 ∧ s2.initialized = true ∧ s2.k = k ∧ s2.time = c.t0 ∧ s2.state = c.x0 ∧ s2.ideal = none ∧
      s2.dense = some empty ∧ Acc c s2 ∧
      ∀ n m, denseSolve c n m tf k s = match integrateTo c n tf m s2 with
        | (s'', .error e) => (s'', .error e)
        | (s'', .ok ()) =>
          match s''.dense with
          | none => (s'', .error (.err .throws))
          | some d => ({ s'' with dense := none }, .ok d) := by
  unfold denseSolve
  simp only [if_neg (not_lt.2 h0)]
  rcases setUp_spec (reset c k s) c with ⟨-, h⟩ | ⟨h, h1, h2⟩
  · exact absurd ⟨hv.initial, hv.max⟩ h
  · have := (inv_reset c k s).setUp h1 h2
    exact ⟨_, this.dense (some empty), rfl, rfl, rfl, rfl, rfl, rfl, acc_reset c k s, fun n m => by
      simp only [h]; rfl⟩

/-- A run that returned made the state the initialized one. -/
theorem denseSolve_spec (hu : Usable c) (n m : Nat) (tf : R) (k : κ) (s : State R κ) (hi : Inv c s) :
    Inv c (denseSolve c n m tf k s).1 ∧ ∀ d, (denseSolve c n m tf k s).2 = .ok d →
      (denseSolve c n m tf k s).1.time = tf ∧ (denseSolve c n m tf k s).1.k = k ∧ (denseSolve c n m tf k s).1.dense = none ∧
      (denseSolve c n m tf k s).1.initialized = true ∧
      c.t0 ≤ tf ∧ Accepted c ∧ Acc c (denseSolve c n m tf k s).1 := by
  by_cases h0 : c.t0 ≤ tf
  · by_cases hv : Accepted c
    · obtain ⟨s2, a1, a2, a3, a4, a5, a6, a7, a8, a9⟩ := denseSolve_eq hv h0 k s
      rw [a9]
      obtain ⟨j1, j2, j3, j4, j5⟩ := integrateTo_spec hu n tf m s2 a1 a2 (a4.trans_le h0)
      generalize integrateTo c n tf m s2 = r at j1 j2 j3 j4 j5 ⊢
      obtain ⟨s3, r⟩ := r
      cases r with
      | error e => exact ⟨j1, fun d h => by cases h⟩
      | ok u =>
        dsimp only at j1 j2 j5 ⊢
        cases s3.dense with
        | none => exact ⟨j1, fun d h => by cases h⟩
        | some d' =>
          exact ⟨j1.dense none, fun d _ => ⟨(j5 rfl).1, j2.k.trans a3, rfl, j2.initialized.trans a2, h0, hv, (j5 rfl).2 a8⟩⟩
    · have : (setUp c (reset c k s)) = (reset c k s, .error (.err .throws)) := by
        rcases setUp_spec (reset c k s) c with ⟨h, -⟩ | ⟨h, h1, h2⟩
        · exact h
        · exact absurd ⟨h1, h2⟩ hv
      unfold denseSolve
      rw [if_neg (not_lt.2 h0), this]
      exact ⟨inv_reset c k s, fun d h => by cases h⟩
  · unfold denseSolve
    rw [if_pos (not_le.1 h0)]
    exact ⟨hi, fun d h => by cases h⟩

theorem intervalFunction_fst (c : Setup R κ) (n m : Nat) (p0 p1 : R) (k : κ) (tolerance epsilon : R) (s : State R κ) :
    (intervalFunction c n m p0 p1 k tolerance epsilon s).1 = (denseSolve c n m p1 k s).1 := by
  unfold intervalFunction
  generalize denseSolve c n m p1 k s = r
  obtain ⟨s', r⟩ := r
  cases r with
  | error e => rfl
  | ok d =>
    dsimp only
    split <;> rfl

theorem intervalFunction_ok {c : Setup R κ} {n m : Nat} {p0 p1 : R} {k : κ} {tolerance epsilon : R} {s : State R κ}
    {g : R → Except Err R} (h : (intervalFunction c n m p0 p1 k tolerance epsilon s).2 = .ok g) :
    ∃ d, (denseSolve c n m p1 k s).2 = .ok d ∧ checkTimes d p0 p1 epsilon = .ok () ∧ g = denseFunction d p0 p1 tolerance := by
  unfold intervalFunction at h
  generalize denseSolve c n m p1 k s = r at h ⊢
  obtain ⟨s', r⟩ := r
  cases r with
  | error e => cases h
  | ok d =>
    dsimp only at h ⊢
    split at h
    · cases h
    · rename_i hc
      exact ⟨d, rfl, hc, (Except.ok.inj h).symm⟩

theorem call_inv (hu : Usable c) (n m : Nat) (a : Call R κ) (hi : Inv c s) : Inv c (call c n m a s) := by
  cases a with
  | evaluate p k => exact (solve_spec hu n m p k s hi).1
  | function p0 p1 k tolerance epsilon =>
    show Inv c (intervalFunction c n m p0 p1 k tolerance epsilon s).1
    rw [intervalFunction_fst]; exact (denseSolve_spec hu n m p1 k s hi).1

theorem after_snoc (c : Setup R κ) (n m : Nat) (calls : List (Call R κ)) (a : Call R κ) :
    after c n m (calls ++ [a]) = call c n m a (after c n m calls) := by simp [after]

/-- Induction over the calls. -/
theorem after_induct (c : Setup R κ) (n m : Nat) {P : State R κ → Prop} (h0 : P (fresh c))
    (calls : List (Call R κ)) (h1 : ∀ a ∈ calls, ∀ s, P s → P (call c n m a s)) : P (after c n m calls) := by
  unfold after
  have key : ∀ (l : List (Call R κ)), (∀ a ∈ l, ∀ s, P s → P (call c n m a s)) → ∀ s, P s →
      P (l.foldl (fun s a => call c n m a s) s) := by
    intro l
    induction l with
    | nil => intro _ s hs; exact hs
    | cons a l ih =>
      intro h s hs
      exact ih (fun b hb => h b (List.mem_cons_of_mem _ hb)) _ (h a List.mem_cons_self s hs)
  exact key calls h1 _ h0

theorem after_inv (hu : Usable c) (n m : Nat) (calls : List (Call R κ)) : Inv c (after c n m calls) :=
  after_induct c n m (inv_fresh c) calls fun a _ _ hs => call_inv hu n m a hs

theorem call_acc (hu : Usable c) (n m : Nat) (a : Call R κ) (hi : Inv c s) (ha : Acc c s) (hr : Returned c n m s a) :
    Acc c (call c n m a s) := by
  cases a with
  | evaluate p k =>
    obtain ⟨v, hv⟩ := hr
    exact ((solve_spec hu n m p k s hi).2 v hv).2.2.2.2.2.2 ha
  | function p0 p1 k tolerance epsilon =>
    obtain ⟨g, hg⟩ := hr
    obtain ⟨d, hd, -⟩ := intervalFunction_ok hg
    show Acc c (intervalFunction c n m p0 p1 k tolerance epsilon s).1
    rw [intervalFunction_fst]
    exact ((denseSolve_spec hu n m p1 k s hi).2 d hd).2.2.2.2.2.2

theorem after_acc (hu : Usable c) (n m : Nat) : ∀ (calls : List (Call R κ)),
    (∀ pre a post, calls = pre ++ a :: post → Returned c n m (after c n m pre) a) → Acc c (after c n m calls) := by
  intro calls
  induction calls using List.reverseRecOn with
  | nil => intro _; exact acc_fresh c
  | append_singleton l a ih =>
    intro h
    rw [after_snoc]
    exact call_acc hu n m a (after_inv hu n m l)
      (ih fun pre b post hb => h pre b (post ++ [a]) (by rw [hb]; simp)) (h l a [] rfl)

/-! Termination. -/

theorem finish_depth (r : State R κ × Except Stop Unit) : (finish r).2 = .error .depth ↔ r.2 = .error .depth := by
  obtain ⟨s, r⟩ := r
  cases r with
  | error e => simp [finish]
  | ok u => simp [finish]

theorem finish_err (r : State R κ × Except Stop Unit) (e : Err) : (finish r).2 = .error (.err e) ↔ r.2 = .error (.err e) := by
  obtain ⟨s, r⟩ := r
  cases r with
  | error e => simp [finish]
  | ok u => simp [finish]

theorem run_returns [Archimedean R] (hu : Usable c) (hpos : 0 < c.maxStep) (tf : R) (s : State R κ) (hi : Inv c s)
    (hin : s.initialized = true) (hle : s.time ≤ tf) :
    ∃ N, (integrateTo c N tf N s).2 ≠ .error .depth ∧ ∀ n m, N ≤ n → N ≤ m → integrateTo c n tf m s = integrateTo c N tf N s := by
  obtain ⟨n, m, hn, hm⟩ := bounds_exist (c := c) hpos
    (max (largest c (max |s.time| |tf|)) (s.ideal.getD c.initialStep)) (tf - s.time)
  have := integrateTo_returns' hu hpos n tf (max |s.time| |tf|) _ (le_max_left _ _) hn (le_max_right _ _) m s hi hin hle
    (le_max_left _ _) (le_max_right _ _) hm
  refine ⟨max (n + 1) (m + 2), ?_, fun n' m' hn' hm' => ?_⟩
  · rw [integrateTo_mono c (n + 1) _ (le_max_left _ _) tf (m + 2) _ s (le_max_right _ _) this]; exact this
  · rw [integrateTo_mono c (n + 1) n' (by omega) tf (m + 2) m' s (by omega) this,
      integrateTo_mono c (n + 1) _ (le_max_left _ _) tf (m + 2) _ s (le_max_right _ _) this]

theorem setUp_invalid (hv : ¬ Accepted c) (s : State R κ) : setUp c s = (s, .error (.err .throws)) := by
  rcases setUp_spec s c with ⟨h, -⟩ | ⟨h, h1, h2⟩
  · exact h
  · exact absurd ⟨h1, h2⟩ hv

theorem solve_returns [Archimedean R] (hu : Usable c) (hpos : 0 < c.maxStep) (tf : R) (k : κ) (s : State R κ) (hi : Inv c s) :
    ∃ N r, r.2 ≠ .error .depth ∧ ∀ n m, N ≤ n → N ≤ m → solve c n m tf k s = r := by
  by_cases h0 : c.t0 ≤ tf
  · by_cases hv : Accepted c
    · obtain ⟨s2, a1, a2, a3, a4, -, -, -, a9⟩ := solve_eq hi hv h0 k
      obtain ⟨N, hN, hN'⟩ := run_returns hu hpos tf s2 a1 a2 a4
      refine ⟨N, finish (integrateTo c N tf N s2), fun h => hN ((finish_depth _).1 h), fun n m hn hm => ?_⟩
      rw [a9, hN' n m hn hm]
    · obtain ⟨p1, -⟩ := prepared c tf k s hi h0
      unfold solve
      simp only [if_neg (not_lt.2 h0)]
      generalize (if k ≠ s.current ∨ tf < s.time then reset c k s else s) = s1 at p1 ⊢
      have hin : s1.initialized = false := by
        cases h : s1.initialized
        · rfl
        · exact absurd ⟨(p1.init h).2.1, (p1.init h).2.2⟩ hv
      simp only [if_pos hin, setUp_invalid hv]
      exact ⟨0, _, by simp, fun n m _ _ => rfl⟩
  · refine ⟨0, (s, .error (.err .throws)), by simp, fun n m _ _ => ?_⟩
    unfold solve
    rw [if_pos (not_le.1 h0)]

theorem denseSolve_returns [Archimedean R] (hu : Usable c) (hpos : 0 < c.maxStep) (tf : R) (k : κ) (s : State R κ) :
    ∃ N r, r.2 ≠ .error .depth ∧ ∀ n m, N ≤ n → N ≤ m → denseSolve c n m tf k s = r := by
  by_cases h0 : c.t0 ≤ tf
  · by_cases hv : Accepted c
    · obtain ⟨s2, a1, a2, a3, a4, -, -, -, -, a9⟩ := denseSolve_eq hv h0 k s
      obtain ⟨N, hN, hN'⟩ := run_returns hu hpos tf s2 a1 a2 (a4.trans_le h0)
      refine ⟨N, _, ?_, fun n m hn hm => (by rw [a9 n m, hN' n m hn hm])⟩
      generalize integrateTo c N tf N s2 = r at hN
      obtain ⟨s3, r⟩ := r
      cases r with
      | error e => simpa using hN
      | ok u =>
        dsimp only
        cases s3.dense <;> simp
    · unfold denseSolve
      simp only [if_neg (not_lt.2 h0), setUp_invalid hv]
      exact ⟨0, _, by simp, fun n m _ _ => rfl⟩
  · refine ⟨0, (s, .error (.err .throws)), by simp, fun n m _ _ => ?_⟩
    unfold denseSolve
    rw [if_pos (not_le.1 h0)]

theorem intervalFunction_returns [Archimedean R] (hu : Usable c) (hpos : 0 < c.maxStep) (p0 p1 : R) (k : κ)
    (tolerance epsilon : R) (s : State R κ) :
    ∃ N r, r.2 ≠ .error .depth ∧ ∀ n m, N ≤ n → N ≤ m → intervalFunction c n m p0 p1 k tolerance epsilon s = r := by
  obtain ⟨N, r, h1, h2⟩ := denseSolve_returns hu hpos p1 k s
  refine ⟨N, _, ?_, fun n m hn hm => (by unfold intervalFunction; rw [h2 n m hn hm])⟩
  obtain ⟨s', r⟩ := r
  cases r with
  | error e => simpa using h1
  | ok d =>
    dsimp only
    split <;> simp

/-- With enough attempts and steps the state after the calls does not depend on their number. -/
theorem after_settles [Archimedean R] (hu : Usable c) (hpos : 0 < c.maxStep) (calls : List (Call R κ)) :
    ∃ N s, Inv c s ∧ ∀ n m, N ≤ n → N ≤ m → after c n m calls = s := by
  induction calls using List.reverseRecOn with
  | nil => exact ⟨0, fresh c, inv_fresh c, fun _ _ _ _ => rfl⟩
  | append_singleton l a ih =>
    obtain ⟨N, s, hi, hs⟩ := ih
    have : ∃ N' s', ∀ n m, N' ≤ n → N' ≤ m → call c n m a s = s' := by
      cases a with
      | evaluate p k =>
        obtain ⟨N', r, -, h⟩ := solve_returns hu hpos p k s hi
        exact ⟨N', r.1, fun n m hn hm => by show (solve c n m p k s).1 = _; rw [h n m hn hm]⟩
      | function p0 p1 k tolerance epsilon =>
        obtain ⟨N', r, -, h⟩ := intervalFunction_returns hu hpos p0 p1 k tolerance epsilon s
        exact ⟨N', r.1, fun n m hn hm => by
          show (intervalFunction c n m p0 p1 k tolerance epsilon s).1 = _; rw [h n m hn hm]⟩
    obtain ⟨N', s', h'⟩ := this
    refine ⟨max N N', s', ?_, fun n m hn hm => ?_⟩
    · rw [← h' N' N' (le_refl _) (le_refl _)]; exact call_inv hu _ _ a hi
    · rw [after_snoc, hs n m (by omega) (by omega), h' n m (by omega) (by omega)]

/-! No exceptions. -/

theorem solve_no_throw (hu : Usable c) (hv : Accepted c) (n m : Nat) {tf : R} (k : κ) (hi : Inv c s) (hd : s.dense = none)
    (h0 : c.t0 ≤ tf) (ht : Tame c k c.t0 tf) :
    (solve c n m tf k s).1.dense = none ∧ ∀ e, (solve c n m tf k s).2 ≠ .error (.err e) := by
  obtain ⟨s2, a1, a2, a3, a4, a5, a6, -, a9⟩ := solve_eq hi hv h0 k
  rw [a9]
  obtain ⟨q1, q2⟩ := integrateTo_no_throw hu n tf c.t0 m s2 a1 a2 a4 (a6 hd) (by rw [a3]; exact ht) a5
  refine ⟨?_, fun e h => q2 e ((finish_err _ e).1 h)⟩
  generalize integrateTo c n tf m s2 = r at q1
  obtain ⟨s3, r⟩ := r
  cases r <;> exact q1

/-! The same point again. -/

theorem attempts_zero (hms : 0 ≤ c.maxStep) (n : Nat) (s : State R κ) (attempt : R) (ha : 0 ≤ s.accuracy) (hat : 0 ≤ attempt)
    (hd : s.dense = none) : ∃ full, (attempts c 0 (n + 1) s attempt false).2 = .ok full := by
  have hh0 := stepSize_nonneg hms (le_refl (0 : R)) hat
  obtain ⟨hh1, hh2, hh3⟩ := stepSize_le (maxStep := c.maxStep) (le_refl (0 : R)) hat
  unfold attempts
  dsimp only
  generalize stepSize c.maxStep 0 attempt = h at hh0 hh1 hh2 hh3 ⊢
  have hz : h = 0 := le_antisymm hh2 hh0
  subst hz
  obtain ⟨s1, -, -, -, -, s6⟩ := step_spec c s 0
  obtain ⟨s7, s8⟩ := s6 hd
  generalize step c.f s 0 = r at s1 s7 s8 ⊢
  obtain ⟨s', r⟩ := r
  dsimp only at s1 s7 s8 ⊢
  subst s8
  dsimp only
  have hsmall : errorEstimate (c.rhs s.k) s.time s.state 0 ≤ s'.accuracy := by
    rw [errorEstimate_zero, s1.accuracy]; exact ha
  obtain ⟨next, b, e1, -⟩ := calcAdjusted_small (root := c.root) (t := s'.time) false (le_refl 0) hms hsmall
  rw [e1]; exact ⟨_, rfl⟩

theorem integrateTo_same (hu : Usable c) (n m : Nat) (s : State R κ) (hi : Inv c s) (hin : s.initialized = true)
    (hd : s.dense = none) : ∃ s', integrateTo c (n + 1) s.time (m + 1) s = (s', .ok ()) ∧ s'.state = s.state := by
  have hms := hi.maxStep_nonneg hin
  obtain ⟨h, hm, -⟩ := integrateTo_step hu (n + 1) s.time s hi hin (le_refl _)
  have hz : h = 0 := le_antisymm (hm.le.trans ((min_le_right _ _).trans (by simp))) hm.nonneg
  have hok : (integrateNoFurther c (n + 1) s (min s.time (s.time + c.maxStep))).2 = .ok () := by
    obtain ⟨full, hf⟩ := attempts_zero hms n s (s.ideal.getD c.initialStep) (hi.accuracy_nonneg hu hin) (hi.attempt_nonneg hin) hd
    unfold integrateNoFurther stepOnce
    rw [min_eq_left (by linarith), if_neg (by rw [hin]; simp), if_neg (by simp)]
    dsimp only
    have htt : (if s.time + c.maxStep < s.time then s.time + c.maxStep else s.time) = s.time := if_neg (by linarith)
    rw [htt, sub_self, if_neg (lt_irrefl _)]
    generalize attempts c 0 (n + 1) s (s.ideal.getD c.initialStep) false = r at hf ⊢
    obtain ⟨s', r⟩ := r
    dsimp only at hf
    subst hf
    rfl
  unfold integrateTo
  generalize integrateNoFurther c (n + 1) s (min s.time (s.time + c.maxStep)) = r at hm hok ⊢
  obtain ⟨s', r⟩ := r
  dsimp only at hm hok
  subst hok
  have ht : s'.time = s.time := by rw [hm.time, hz, add_zero]
  have hx : s'.state = s.state := by rw [hm.state, hz, kutta_zero]
  dsimp only
  rw [if_neg (by rw [ht]; exact lt_irrefl _)]
  exact ⟨s', rfl, hx⟩

theorem solve_same (hu : Usable c) (n m : Nat) (s : State R κ) (hi : Inv c s) (hin : s.initialized = true)
    (hd : s.dense = none) : (solve c (n + 1) (m + 1) s.time s.k s).2 = .ok s.state := by
  obtain ⟨s', h1, h2⟩ := integrateTo_same hu n m s hi hin hd
  unfold solve
  rw [if_neg (not_lt.2 hi.reach.le)]
  dsimp only
  have hs : (if s.k ≠ s.current ∨ s.time < s.time then reset c s.k s else s) = s := if_neg (by rw [hi.same]; simp)
  rw [hs, if_neg (by rw [hin]; simp)]
  dsimp only
  rw [h1]
  dsimp only
  rw [h2]

end Maliput.Ode
