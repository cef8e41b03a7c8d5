import Verif.Lemmas.Integrator
import Verif.Lemmas.Monad
import Mathlib.Data.List.Chain

set_option autoImplicit false
set_option linter.unusedSectionVars false

/-! Lemmas for the integrators: what holds after every call. -/
namespace Maliput.Ode

open Maliput Piecewise Spec
open Maliput.RouteGraph (Stop)

variable {R κ : Type} [Field R] [LinearOrder R] [IsStrictOrderedRing R] [DecidableEq κ]

section reach
variable {f : R → R → R} {allowed allowed' : R → R → R → Prop} {t0 x0 t x h : R}

theorem Spec.Reaches.start (f : R → R → R) (allowed : R → R → R → Prop) (t0 x0 : R) : Reaches f allowed t0 x0 t0 x0 :=
  ⟨[(t0, x0)], ⟨rfl, List.isChain_singleton _⟩, rfl⟩

theorem Spec.Steps.snoc {l : List (R × R)} (hs : Steps f allowed t0 x0 l) (hl : l.getLast? = some (t, x))
    (hh : allowed t x h) : Steps f allowed t0 x0 (l ++ [(t + h, kutta f t x h)]) := by
  refine ⟨?_, ?_⟩
  · have := hs.1
    cases l with
    | nil => cases this
    | cons a l => exact this
  · rw [List.isChain_append]
    refine ⟨hs.2, List.isChain_singleton _, fun a ha b hb => ?_⟩
    rw [hl] at ha
    cases ha
    cases hb
    exact ⟨h, hh, rfl⟩

theorem Spec.Reaches.step (hr : Reaches f allowed t0 x0 t x) (hh : allowed t x h) :
    Reaches f allowed t0 x0 (t + h) (kutta f t x h) := by
  obtain ⟨l, h1, h2⟩ := hr
  exact ⟨_, h1.snoc h2 hh, by simp⟩

/-- Induction over the steps. -/
theorem Spec.Steps.induct {P : R → R → Prop} (hstart : P t0 x0)
    (hstep : ∀ t x h, P t x → allowed t x h → P (t + h) (kutta f t x h)) :
    ∀ (l : List (R × R)), Steps f allowed t0 x0 l → ∀ p ∈ l, P p.1 p.2 := by
  intro l hl
  obtain ⟨h1, h2⟩ := hl
  have key : ∀ (l : List (R × R)), (∀ p, l.head? = some p → P p.1 p.2) →
      (l.IsChain fun a b => ∃ h, allowed a.1 a.2 h ∧ b = (a.1 + h, kutta f a.1 a.2 h)) → ∀ p ∈ l, P p.1 p.2 := by
    intro l
    induction l with
    | nil => intro _ _ p hp; cases hp
    | cons a l ih =>
      intro ha hc p hp
      have hpa := ha a rfl
      rcases List.mem_cons.1 hp with rfl | hp
      · exact hpa
      · refine ih (fun q hq => ?_) hc.tail p hp
        cases l with
        | nil => cases hq
        | cons b l =>
          cases hq
          obtain ⟨⟨h, hh, hb⟩, -⟩ := List.isChain_cons_cons.1 hc
          rw [hb]
          exact hstep _ _ _ hpa hh
  exact key l (fun p hp => by rw [h1] at hp; cases hp; exact hstart) h2

theorem Spec.Reaches.induct {P : R → R → Prop} (hr : Reaches f allowed t0 x0 t x) (hstart : P t0 x0)
    (hstep : ∀ t x h, P t x → allowed t x h → P (t + h) (kutta f t x h)) : P t x := by
  obtain ⟨l, h1, h2⟩ := hr
  exact Steps.induct hstart hstep l h1 (t, x) (List.mem_of_getLast? h2)

theorem Spec.Reaches.mono (hr : Reaches f allowed t0 x0 t x) (h : ∀ t x h, allowed t x h → allowed' t x h) :
    Reaches f allowed' t0 x0 t x :=
  hr.induct (.start _ _ _ _) fun _ _ _ hp hh => hp.step (h _ _ _ hh)

end reach

/-- What a call of the integrator that runs on does in one step. -/
structure Moved (c : Setup R κ) (s s' : State R κ) (hmax h : R) : Prop where
  nonneg : 0 ≤ h
  max : h ≤ c.maxStep
  le : h ≤ hmax
  frame : Frame s s'
  time : s'.time = s.time + h
  state : s'.state = kutta (c.rhs s.k) s.time s.state h
  ideal : s'.ideal = s.ideal ∨ ∃ i, s'.ideal = some i ∧ least c ≤ i ∧ i ≤ Max.max c.maxStep (tol * Max.max 1 (|s.time| + c.maxStep))

/-- The settings are such that the step size control works. -/
structure Usable (c : Setup R κ) : Prop where
  root : RootOk c.root
  accuracy : 0 ≤ c.accuracy

/-- What holds for the state of the integrator after any calls. -/
structure Inv (c : Setup R κ) (s : State R κ) : Prop where
  same : s.k = s.current
  reach : Reaches (c.rhs s.k) (Forward c.maxStep) c.t0 c.x0 s.time s.state
  ideal : ∀ i, s.ideal = some i → least c ≤ i
  init : s.initialized = true → s.accuracy = min c.accuracy (1 / 10) ∧ 0 ≤ c.initialStep ∧ c.initialStep ≤ c.maxStep

/-- What holds besides if no call has thrown since the last reset. -/
def Acc (c : Setup R κ) (s : State R κ) : Prop :=
  Reaches (c.rhs s.k) (Accurate (c.rhs s.k) c.maxStep (min c.accuracy (1 / 10))) c.t0 c.x0 s.time s.state

variable {c : Setup R κ} {s s' : State R κ}

theorem Inv.accuracy_nonneg (hi : Inv c s) (hu : Usable c) (h : s.initialized = true) : 0 ≤ s.accuracy := by
  rw [(hi.init h).1]; exact le_min hu.accuracy (by norm_num)

theorem Inv.maxStep_nonneg (hi : Inv c s) (h : s.initialized = true) : 0 ≤ c.maxStep :=
  (hi.init h).2.1.trans (hi.init h).2.2

theorem least_nonneg (h : 0 ≤ c.maxStep) : 0 ≤ least c := le_min (by have := tol_pos (R := R); linarith) h

theorem Inv.attempt_nonneg (hi : Inv c s) (h : s.initialized = true) : 0 ≤ s.ideal.getD c.initialStep := by
  cases hd : s.ideal with
  | none => exact (hi.init h).2.1
  | some i => exact (least_nonneg (hi.maxStep_nonneg h)).trans (hi.ideal i hd)

theorem Inv.moved {hmax h : R} (hi : Inv c s) (hm : Moved c s s' hmax h) : Inv c s' where
  same := by rw [hm.frame.k, hm.frame.current]; exact hi.same
  reach := by
    rw [hm.frame.k, hm.time, hm.state]
    rcases hm.nonneg.eq_or_lt with hz | hz
    · rw [← hz, kutta_zero, add_zero]; exact hi.reach
    · exact hi.reach.step ⟨hz, hm.max⟩
  ideal := by
    intro i h
    rcases hm.ideal with h' | ⟨j, h', hj, -⟩
    · exact hi.ideal i (h'.symm.trans h)
    · rw [h'] at h; cases h; exact hj
  init := by
    intro h
    rw [hm.frame.initialized] at h
    rw [hm.frame.accuracy]
    exact hi.init h

theorem Acc.moved {hmax h : R} (ha : Acc c s) (hi : Inv c s) (hin : s.initialized = true) (hm : Moved c s s' hmax h)
    (he : errorEstimate (c.rhs s.k) s.time s.state h ≤ s.accuracy ∨ h ≤ tiny c s.time) : Acc c s' := by
  unfold Acc
  rw [hm.frame.k, hm.time, hm.state]
  rcases hm.nonneg.eq_or_lt with hz | hz
  · rw [← hz, kutta_zero, add_zero]; exact ha
  · refine Reaches.step ha ⟨⟨hz, hm.max⟩, ?_⟩
    rw [← (hi.init hin).1]
    exact he

theorem integrateNoFurther_spec (hu : Usable c) (n : Nat) (s : State R κ) (hi : Inv c s) (hin : s.initialized = true)
    (boundary : R) (hb : s.time ≤ boundary) :
    ∃ h, Moved c s (integrateNoFurther c n s boundary).1 (min c.maxStep (boundary - s.time)) h ∧
      ((integrateNoFurther c n s boundary).2 = .ok () →
        (errorEstimate (c.rhs s.k) s.time s.state h ≤ s.accuracy ∨ h ≤ tiny c s.time) ∧
        min (min c.maxStep (boundary - s.time)) (min (95 / 100 * s.ideal.getD c.initialStep) (95 / 100 * tol)) ≤ h ∧
        (h = min c.maxStep (boundary - s.time) ∨ ∃ i, (integrateNoFurther c n s boundary).1.ideal = some i)) := by
  have hms := hi.maxStep_nonneg hin
  have ht : (if s.time + c.maxStep < boundary then s.time + c.maxStep else boundary) - s.time =
      min c.maxStep (boundary - s.time) := by
    split
    · rename_i h; rw [min_eq_left (by linarith)]; ring
    · rename_i h; rw [min_eq_right (by linarith)]
  have ht' : (if s.time + c.maxStep < boundary then s.time + c.maxStep else boundary) =
      s.time + min c.maxStep (boundary - s.time) := by rw [← ht]; ring
  have hm0 : 0 ≤ min c.maxStep (boundary - s.time) := le_min hms (by linarith)
  unfold integrateNoFurther stepOnce
  rw [if_neg (by rw [hin]; simp), if_neg (by linarith)]
  dsimp only
  rw [ht, ht', if_neg (not_lt.2 hm0)]
  obtain ⟨h, k1, k2, k3, k4, k5, k6, k7, k8⟩ := attempts_spec c hu.root _ hm0 hms n s (s.ideal.getD c.initialStep) false
    (hi.accuracy_nonneg hu hin) (hi.attempt_nonneg hin) (by simp)
  generalize attempts c (min c.maxStep (boundary - s.time)) n s (s.ideal.getD c.initialStep) false = r at k4 k5 k6 k7 k8 ⊢
  obtain ⟨s', r⟩ := r
  dsimp only at k4 k5 k6 k7 k8
  cases r with
  | error e => exact ⟨h, ⟨k1, k2, k3, k4, k5, k6, k7⟩, fun hf => by cases hf⟩
  | ok full =>
    dsimp only
    obtain ⟨m1, m2, m3, m4⟩ := k8 full rfl
    have hs : (if full = true ∨ s'.time ≥ s.time + min c.maxStep (boundary - s.time) then
        { s' with time := s.time + min c.maxStep (boundary - s.time) } else s') = s' := by
      split
      · rename_i hc
        have : h = min c.maxStep (boundary - s.time) := by
          rcases hc with hc | hc
          · rw [m1] at hc; simpa using hc
          · rw [k5] at hc; linarith
        rw [← this, ← k5]
      · rfl
    rw [hs]
    refine ⟨h, ⟨k1, k2, k3, k4, k5, k6, k7⟩, fun _ => ⟨m2, ?_, m4 (min_le_left _ _)⟩⟩
    rwa [min_eq_left (min_le_left c.maxStep (boundary - s.time))] at m3

theorem min_gap (tf t m : R) : min m (min tf (t + m) - t) = min m (tf - t) := by
  rcases le_total tf (t + m) with h | h
  · rw [min_eq_left h]
  · rw [min_eq_right h, add_sub_cancel_left, min_self, min_eq_left (by linarith)]

/-- One step of the loop of `integrateTo`. -/
theorem integrateTo_step (hu : Usable c) (n : Nat) (tf : R) (s : State R κ) (hi : Inv c s) (hin : s.initialized = true)
    (hle : s.time ≤ tf) :
    ∃ h, Moved c s (integrateNoFurther c n s (min tf (s.time + c.maxStep))).1 (min c.maxStep (tf - s.time)) h ∧
      ((integrateNoFurther c n s (min tf (s.time + c.maxStep))).2 = .ok () →
        (errorEstimate (c.rhs s.k) s.time s.state h ≤ s.accuracy ∨ h ≤ tiny c s.time) ∧
        min (min c.maxStep (tf - s.time)) (min (95 / 100 * s.ideal.getD c.initialStep) (95 / 100 * tol)) ≤ h ∧
        (h = min c.maxStep (tf - s.time) ∨
          ∃ i, (integrateNoFurther c n s (min tf (s.time + c.maxStep))).1.ideal = some i)) := by
  have hms := hi.maxStep_nonneg hin
  have := integrateNoFurther_spec hu n s hi hin (min tf (s.time + c.maxStep)) (le_min hle (by linarith))
  rwa [min_gap] at this

theorem integrateTo_spec (hu : Usable c) (n : Nat) (tf : R) : ∀ (m : Nat) (s : State R κ), Inv c s → s.initialized = true →
    s.time ≤ tf → Inv c (integrateTo c n tf m s).1 ∧ Frame s (integrateTo c n tf m s).1 ∧
      (integrateTo c n tf m s).1.time ≤ tf ∧ s.time ≤ (integrateTo c n tf m s).1.time ∧
      ((integrateTo c n tf m s).2 = .ok () → (integrateTo c n tf m s).1.time = tf ∧
        (Acc c s → Acc c (integrateTo c n tf m s).1))
  | 0, s, hi, hin, hle => ⟨hi, Frame.refl _, hle, le_refl _, fun h => by cases h⟩
  | m + 1, s, hi, hin, hle => by
    obtain ⟨h, hm, hok⟩ := integrateTo_step hu n tf s hi hin hle
    unfold integrateTo
    generalize integrateNoFurther c n s (min tf (s.time + c.maxStep)) = r at hm hok ⊢
    obtain ⟨s', r⟩ := r
    dsimp only at hm hok
    have hi' := hi.moved hm
    have hle' : s'.time ≤ tf := by
      rw [hm.time]; have := hm.le.trans (min_le_right _ _); linarith
    have hge' : s.time ≤ s'.time := by rw [hm.time]; have := hm.nonneg; linarith
    cases r with
    | error e => exact ⟨hi', hm.frame, hle', hge', fun hf => by cases hf⟩
    | ok u =>
      dsimp only
      obtain ⟨o1, -, -⟩ := hok rfl
      split
      · obtain ⟨j1, j2, j3, j4, j5⟩ := integrateTo_spec hu n tf m s' hi' (hm.frame.initialized.trans hin) hle'
        refine ⟨j1, hm.frame.trans j2, j3, hge'.trans j4, fun hf => ?_⟩
        obtain ⟨q1, q2⟩ := j5 hf
        exact ⟨q1, fun ha => q2 (ha.moved hi hin hm o1)⟩
      · rename_i hlt
        exact ⟨hi', hm.frame, hle', hge', fun _ => ⟨le_antisymm hle' (not_lt.1 hlt), fun ha => ha.moved hi hin hm o1⟩⟩

theorem setUp_spec (s : State R κ) (c : Setup R κ) : (setUp c s = (s, .error (.err .throws)) ∧
      ¬ (0 ≤ c.initialStep ∧ c.initialStep ≤ c.maxStep)) ∨
    (setUp c s = ({ s with accuracy := min c.accuracy (1 / 10), initialized := true }, .ok ()) ∧
      0 ≤ c.initialStep ∧ c.initialStep ≤ c.maxStep) := by
  unfold setUp
  split
  · rename_i h; exact .inl ⟨rfl, fun hh => by linarith [hh.1.trans hh.2]⟩
  · split
    · rename_i h; exact .inl ⟨rfl, fun hh => by linarith [hh.2]⟩
    · split
      · rename_i h; exact .inl ⟨rfl, fun hh => by linarith [hh.1]⟩
      · rename_i h1 h2 h3
        refine .inr ⟨?_, by linarith, by linarith⟩
        congr 2
        split
        · rename_i h; rw [min_eq_right h.le]
        · rename_i h; rw [min_eq_left (not_lt.1 h)]

theorem inv_fresh (c : Setup R κ) : Inv c (fresh c) := ⟨rfl, .start _ _ _ _, fun _ h => (by cases h), fun h => (by cases h)⟩

theorem inv_reset (c : Setup R κ) (k : κ) (s : State R κ) : Inv c (reset c k s) :=
  ⟨rfl, .start _ _ _ _, fun _ h => (by cases h), fun h => (by cases h)⟩

theorem acc_fresh (c : Setup R κ) : Acc c (fresh c) := .start _ _ _ _

theorem acc_reset (c : Setup R κ) (k : κ) (s : State R κ) : Acc c (reset c k s) := .start _ _ _ _

theorem Inv.setUp (hi : Inv c s) (h1 : 0 ≤ c.initialStep) (h2 : c.initialStep ≤ c.maxStep) :
    Inv c { s with accuracy := min c.accuracy (1 / 10), initialized := true } :=
  ⟨hi.same, hi.reach, hi.ideal, fun _ => ⟨rfl, h1, h2⟩⟩

/-- The state in which `solve` starts to integrate. -/
theorem prepared (c : Setup R κ) (tf : R) (k : κ) (s : State R κ) (hi : Inv c s) (h0 : c.t0 ≤ tf) :
    Inv c (if k ≠ s.current ∨ tf < s.time then reset c k s else s) ∧
    (if k ≠ s.current ∨ tf < s.time then reset c k s else s).k = k ∧
    (if k ≠ s.current ∨ tf < s.time then reset c k s else s).time ≤ tf ∧
    (Acc c s → Acc c (if k ≠ s.current ∨ tf < s.time then reset c k s else s)) := by
  split
  · exact ⟨inv_reset c k s, rfl, h0, fun _ => acc_reset c k s⟩
  · rename_i h
    simp only [not_or, ne_eq, not_not, not_lt] at h
    exact ⟨hi, hi.same.trans h.1.symm, h.2, id⟩

theorem solve_spec (hu : Usable c) (n m : Nat) (tf : R) (k : κ) (s : State R κ) (hi : Inv c s) :
    Inv c (solve c n m tf k s).1 ∧ ∀ v, (solve c n m tf k s).2 = .ok v →
      (solve c n m tf k s).1.time = tf ∧ (solve c n m tf k s).1.state = v ∧ (solve c n m tf k s).1.k = k ∧
      c.t0 ≤ tf ∧ 0 ≤ c.initialStep ∧ c.initialStep ≤ c.maxStep ∧ (Acc c s → Acc c (solve c n m tf k s).1) := by
  unfold solve
  split
  · exact ⟨hi, fun v h => by cases h⟩
  · rename_i h0
    obtain ⟨p1, p2, p3, p4⟩ := prepared c tf k s hi (not_lt.1 h0)
    dsimp only
    generalize (if k ≠ s.current ∨ tf < s.time then reset c k s else s) = s1 at p1 p2 p3 p4 ⊢
    have key : ∀ s2 : State R κ, Inv c s2 → s2.initialized = true → s2.k = k → s2.time ≤ tf → (Acc c s1 → Acc c s2) →
        Inv c (match integrateTo c n tf m s2 with
          | (s'', .error e) => (s'', .error e)
          | (s'', .ok ()) => (s'', .ok s''.state) : State R κ × Except Stop R).1 ∧
        ∀ v, (match integrateTo c n tf m s2 with
          | (s'', .error e) => (s'', .error e)
          | (s'', .ok ()) => (s'', .ok s''.state) : State R κ × Except Stop R).2 = .ok v →
          (match integrateTo c n tf m s2 with
            | (s'', .error e) => (s'', .error e)
            | (s'', .ok ()) => (s'', .ok s''.state) : State R κ × Except Stop R).1.time = tf ∧
          (match integrateTo c n tf m s2 with
            | (s'', .error e) => (s'', .error e)
            | (s'', .ok ()) => (s'', .ok s''.state) : State R κ × Except Stop R).1.state = v ∧
          (match integrateTo c n tf m s2 with
            | (s'', .error e) => (s'', .error e)
            | (s'', .ok ()) => (s'', .ok s''.state) : State R κ × Except Stop R).1.k = k ∧
          c.t0 ≤ tf ∧ 0 ≤ c.initialStep ∧ c.initialStep ≤ c.maxStep ∧
          (Acc c s → Acc c (match integrateTo c n tf m s2 with
            | (s'', .error e) => (s'', .error e)
            | (s'', .ok ()) => (s'', .ok s''.state) : State R κ × Except Stop R).1) := by
      intro s2 q1 q2 q3 q4 q5
      obtain ⟨j1, j2, j3, j4, j5⟩ := integrateTo_spec hu n tf m s2 q1 q2 q4
      generalize integrateTo c n tf m s2 = r at j1 j2 j3 j4 j5 ⊢
      obtain ⟨s3, r⟩ := r
      cases r with
      | error e => exact ⟨j1, fun v h => by cases h⟩
      | ok u =>
        refine ⟨j1, fun v h => ⟨(j5 rfl).1, Except.ok.inj h, j2.k.trans q3, not_lt.1 h0, (q1.init q2).2.1, (q1.init q2).2.2,
          fun ha => (j5 rfl).2 (q5 (p4 ha))⟩⟩
    split
    · rename_i s2 e heq
      split at heq
      · rcases setUp_spec s1 c with ⟨h, -⟩ | ⟨h, -⟩
        · rw [h] at heq; cases heq; exact ⟨p1, fun v h => by cases h⟩
        · rw [h] at heq; cases heq
      · cases heq
    · rename_i s2 heq
      split at heq
      · rcases setUp_spec s1 c with ⟨h, -⟩ | ⟨h, h1, h2⟩
        · rw [h] at heq; cases heq
        · rw [h] at heq; cases heq
          exact key _ (p1.setUp h1 h2) rfl p2 p3 id
      · rename_i hin
        cases heq
        exact key _ p1 (by simpa using hin) p2 p3 id

end Maliput.Ode
