import Verif.Lemmas.InitialValueProblem
import Mathlib.Data.List.Chain

set_option autoImplicit false
set_option linter.unusedSectionVars false

/-! Lemmas for initial value problems: what holds after every call. -/
namespace Maliput.Ivp

open Maliput Piecewise Spec
open Maliput.RouteGraph (Stop)
open Maliput.Ode (tol tol_pos RootOk min_gap)

variable {R : Type} [Field R] [LinearOrder R] [IsStrictOrderedRing R]

section reach
variable {f : Rhs R} {allowed allowed' : Allowed R} {t0 t h : R} {x0 x k1 k2 k3 : List R}

theorem Spec.Reaches.start (f : Rhs R) (allowed : Allowed R) (t0 : R) (x0 : List R) : Reaches f allowed t0 x0 t0 x0 :=
  ⟨[(t0, x0)], ⟨rfl, List.isChain_singleton _⟩, rfl⟩

theorem Spec.Steps.snoc {l : List (R × List R)} (hs : Steps f allowed t0 x0 l) (hl : l.getLast? = some (t, x))
    (hh : allowed t x.length h k1 k2 k3) (hk : Stages f t x h k1 k2 k3) :
    Steps f allowed t0 x0 (l ++ [(t + h, kutta x h k1 k2 k3)]) := by
  refine ⟨?_, ?_⟩
  · have := hs.1
    cases l with
    | nil => cases this
    | cons a l => exact this
  · rw [List.isChain_append]
    refine ⟨hs.2, List.isChain_singleton _, fun a ha b hb => ?_⟩
    rw [hl] at ha
    cases ha
    cases hb
    exact ⟨h, k1, k2, k3, hh, hk, rfl⟩

theorem Spec.Reaches.step (hr : Reaches f allowed t0 x0 t x) (hh : allowed t x.length h k1 k2 k3) (hk : Stages f t x h k1 k2 k3) :
    Reaches f allowed t0 x0 (t + h) (kutta x h k1 k2 k3) := by
  obtain ⟨l, h1, h2⟩ := hr
  exact ⟨_, h1.snoc h2 hh hk, by simp⟩

/-- Induction over the steps. -/
theorem Spec.Steps.induct {P : R → List R → Prop} (hstart : P t0 x0)
    (hstep : ∀ t x h k1 k2 k3, P t x → allowed t x.length h k1 k2 k3 → Stages f t x h k1 k2 k3 → P (t + h) (kutta x h k1 k2 k3)) :
    ∀ (l : List (R × List R)), Steps f allowed t0 x0 l → ∀ p ∈ l, P p.1 p.2 := by
  intro l hl
  obtain ⟨h1, h2⟩ := hl
  have key : ∀ (l : List (R × List R)), (∀ p, l.head? = some p → P p.1 p.2) →
      l.IsChain (Step f allowed) → ∀ p ∈ l, P p.1 p.2 := by
    intro l
    induction l with
    | nil => intro _ _ p hp; cases hp
    | cons a l ih =>
      intro ha hc p hp
      have hpa := ha a rfl
      rcases List.mem_cons.1 hp with rfl | hp
      · exact hpa
      · refine ih (fun q hq => ?_) hc.tail p hp
        cases l with
        | nil => cases hq
        | cons b l =>
          cases hq
          obtain ⟨⟨h, k1, k2, k3, hh, hk, hb⟩, -⟩ := List.isChain_cons_cons.1 hc
          rw [hb]
          exact hstep _ _ _ _ _ _ hpa hh hk
  exact key l (fun p hp => by rw [h1] at hp; cases hp; exact hstart) h2

theorem Spec.Reaches.induct {P : R → List R → Prop} (hr : Reaches f allowed t0 x0 t x) (hstart : P t0 x0)
    (hstep : ∀ t x h k1 k2 k3, P t x → allowed t x.length h k1 k2 k3 → Stages f t x h k1 k2 k3 → P (t + h) (kutta x h k1 k2 k3)) :
    P t x := by
  obtain ⟨l, h1, h2⟩ := hr
  exact Steps.induct hstart hstep l h1 (t, x) (List.mem_of_getLast? h2)

end reach

/-- The settings are such that the step size control works. -/
structure Usable (c : Setup R) : Prop where
  root : RootOk c.root
  accuracy : 0 ≤ c.accuracy

/-- The state is one that steps lead to. -/
def Good (c : Setup R) (s : State R) : Prop :=
  Reaches (c.rhs s.k) (Forward c.maxStep) s.current.t0 s.current.x0 s.time s.state

/-- It is one that accurate steps lead to. -/
def Acc (c : Setup R) (s : State R) : Prop :=
  Reaches (c.rhs s.k) (Accurate c.maxStep (min c.accuracy (1 / 10))) s.current.t0 s.current.x0 s.time s.state

/-- What holds for the state after any calls, besides where it is. -/
structure Inv (c : Setup R) (s : State R) : Prop where
  same : s.k = s.current.k
  len : s.state.length = c.defaults.x0.length
  ideal : ∀ i, s.ideal = some i → least c ≤ i
  init : s.initialized = true → s.accuracy = min c.accuracy (1 / 10) ∧ 0 ≤ c.initialStep ∧ c.initialStep ≤ c.maxStep

variable {c : Setup R} {s s' : State R}

theorem Inv.accuracy_nonneg (hi : Inv c s) (hu : Usable c) (h : s.initialized = true) : 0 ≤ s.accuracy := by
  rw [(hi.init h).1]; exact le_min hu.accuracy (by norm_num)

theorem Inv.maxStep_nonneg (hi : Inv c s) (h : s.initialized = true) : 0 ≤ c.maxStep :=
  (hi.init h).2.1.trans (hi.init h).2.2

theorem least_nonneg (h : 0 ≤ c.maxStep) : 0 ≤ least c := le_min (by have := tol_pos (R := R); linarith) h

theorem Inv.attempt_nonneg (hi : Inv c s) (h : s.initialized = true) : 0 ≤ s.ideal.getD c.initialStep := by
  cases hd : s.ideal with
  | none => exact (hi.init h).2.1
  | some i => exact (least_nonneg (hi.maxStep_nonneg h)).trans (hi.ideal i hd)

theorem Inv.frame (hi : Inv c s) (hf : Frame s s') (hd : s'.ideal = s.ideal ∨ ∃ i, s'.ideal = some i ∧ least c ≤ i) : Inv c s' where
  same := by rw [hf.k, hf.current]; exact hi.same
  len := hf.len.trans hi.len
  ideal := by
    intro i h
    rcases hd with h' | ⟨j, h', hj⟩
    · exact hi.ideal i (h'.symm.trans h)
    · rw [h'] at h; cases h; exact hj
  init := by
    intro h
    rw [hf.initialized] at h
    rw [hf.accuracy]
    exact hi.init h

theorem Good.went {h : R} {k1 k2 k3 : List R} (hg : Good c s) (hf : Frame s s') (h0 : 0 ≤ h) (h1 : h ≤ c.maxStep)
    (hw : Went c s s' h k1 k2 k3) : Good c s' := by
  unfold Good
  rw [hf.k, hf.current, hw.time, hw.state]
  rcases h0.eq_or_lt with hz | hz
  · rw [← hz, kutta_zero, add_zero]; exact hg
  · exact Reaches.step hg ⟨hz, h1⟩ hw.stages

theorem Good.failed {hmax : R} (hg : Good c s) (hf : Frame s s') (h : Failed c s s' hmax) : Good c s' ∨ Broken c s' := by
  rcases h with h | ⟨h1, h2⟩ | ⟨h, k1, k2, k3, h0, h1, -, hw⟩
  · exact .inr h
  · left; unfold Good; rw [hf.k, hf.current, h1, h2]; exact hg
  · exact .inl (hg.went hf h0 h1 hw)

theorem Acc.went {hmax h : R} {k1 k2 k3 : List R} {full : Bool} (ha : Acc c s) (hi : Inv c s) (hin : s.initialized = true)
    (hf : Frame s s') (hw : Advanced c s s' hmax full h k1 k2 k3) : Acc c s' := by
  unfold Acc
  rw [hf.k, hf.current, hw.went.time, hw.went.state]
  rcases hw.nonneg.eq_or_lt with hz | hz
  · rw [← hz, kutta_zero, add_zero]; exact ha
  · refine Reaches.step ha ⟨⟨hz, hw.max⟩, ?_⟩ hw.went.stages
    rw [← (hi.init hin).1]
    exact hw.small

theorem integrateNoFurther_spec (hu : Usable c) (n : Nat) (s : State R) (hi : Inv c s) (hin : s.initialized = true)
    (hne : s.state ≠ []) (boundary : R) (hb : s.time ≤ boundary) :
    Frame s (integrateNoFurther c n s boundary).1 ∧ Inv c (integrateNoFurther c n s boundary).1 ∧
      (∀ e, (integrateNoFurther c n s boundary).2 = .error e →
        Failed c s (integrateNoFurther c n s boundary).1 (min c.maxStep (boundary - s.time))) ∧
      ((integrateNoFurther c n s boundary).2 = .ok () → ∃ h k1 k2 k3,
        Advanced c s (integrateNoFurther c n s boundary).1 (min c.maxStep (boundary - s.time))
          (decide (h = min c.maxStep (boundary - s.time))) h k1 k2 k3) := by
  have hms := hi.maxStep_nonneg hin
  have ht : (if s.time + c.maxStep < boundary then s.time + c.maxStep else boundary) - s.time =
      min c.maxStep (boundary - s.time) := by
    split
    · rename_i h; rw [min_eq_left (by linarith)]; ring
    · rename_i h; rw [min_eq_right (by linarith)]
  have ht' : (if s.time + c.maxStep < boundary then s.time + c.maxStep else boundary) =
      s.time + min c.maxStep (boundary - s.time) := by rw [← ht]; ring
  have hm0 : 0 ≤ min c.maxStep (boundary - s.time) := le_min hms (by linarith)
  unfold integrateNoFurther
  rw [if_neg (by rw [hin]; simp), if_neg (by linarith), if_neg (by simpa using hne)]
  dsimp only
  rw [ht, ht', if_neg (not_lt.2 hm0)]
  obtain ⟨k1, k2, k3, k4⟩ := attempts_spec c hu.root _ hm0 hms n s (s.ideal.getD c.initialStep) false
    (hi.accuracy_nonneg hu hin) (hi.attempt_nonneg hin) (by simp)
  generalize attempts c (min c.maxStep (boundary - s.time)) n s (s.ideal.getD c.initialStep) false = r at k1 k2 k3 k4 ⊢
  obtain ⟨s', r⟩ := r
  dsimp only at k1 k2 k3 k4
  cases r with
  | error e => exact ⟨k1, hi.frame k1 k2, fun _ _ => k3 e rfl, fun hf => by cases hf⟩
  | ok full =>
    dsimp only
    obtain ⟨h, j1, j2, j3, ha⟩ := k4 full rfl
    have hs : (if full = true ∨ s'.time ≥ s.time + min c.maxStep (boundary - s.time) then
        { s' with time := s.time + min c.maxStep (boundary - s.time) } else s') = s' := by
      split
      · rename_i hc
        have : h = min c.maxStep (boundary - s.time) := by
          rcases hc with hc | hc
          · rw [ha.full] at hc; simpa using hc
          · rw [ha.went.time] at hc; linarith [ha.le]
        rw [← this, ← ha.went.time]
      · rfl
    rw [hs]
    exact ⟨k1, hi.frame k1 k2, fun _ hf => (by cases hf), fun _ => ⟨h, j1, j2, j3, ha.full ▸ ha⟩⟩

theorem integrateNoFurther_empty (n : Nat) (s : State R) (hin : s.initialized = true) (he : s.state = []) (boundary : R)
    (hb : s.time ≤ boundary) : integrateNoFurther c n s boundary = ({ s with time := boundary }, .ok ()) := by
  unfold integrateNoFurther
  rw [if_neg (by rw [hin]; simp), if_neg (by linarith), if_pos (by rw [he]; rfl)]

theorem attempts_broken {hmax : R} (n : Nat) (attempt : R) (atMin : Bool) (hb : Broken c s) :
    (attempts c hmax n s attempt atMin).1 = s ∧ ∀ full, (attempts c hmax n s attempt atMin).2 ≠ .ok full := by
  obtain ⟨e, he⟩ := hb
  cases n with
  | zero => exact ⟨rfl, nofun⟩
  | succ n =>
    have : step c.f s (Ode.stepSize c.maxStep hmax attempt) = (s, .error e) := by
      unfold step
      cases hd : s.dense with
      | none => simp only [doStep, he]
      | some d => simp only [he]
    unfold attempts
    dsimp only
    rw [this]
    exact ⟨rfl, nofun⟩

theorem integrateNoFurther_broken (n : Nat) (boundary : R) (hb : Broken c s) (hne : s.state ≠ []) :
    (integrateNoFurther c n s boundary).1 = s ∧ (integrateNoFurther c n s boundary).2 ≠ .ok () := by
  unfold integrateNoFurther
  split
  · exact ⟨rfl, nofun⟩
  · split
    · exact ⟨rfl, nofun⟩
    · rw [if_neg (by simpa using hne)]
      dsimp only
      generalize (if s.time + c.maxStep < boundary then s.time + c.maxStep else boundary) = target
      split
      · exact ⟨rfl, nofun⟩
      · obtain ⟨h1, h2⟩ := attempts_broken (hmax := target - s.time) n (s.ideal.getD c.initialStep) false hb
        split
        · rename_i s' e heq
          rw [heq] at h1
          exact ⟨h1, nofun⟩
        · rename_i s' full heq
          exact absurd (by rw [heq]) (h2 full)

theorem integrateTo_broken (n : Nat) (tf : R) (m : Nat) (hb : Broken c s) (hne : s.state ≠ []) :
    (integrateTo c n tf m s).1 = s ∧ (integrateTo c n tf m s).2 ≠ .ok () := by
  cases m with
  | zero => exact ⟨rfl, nofun⟩
  | succ m =>
    obtain ⟨h1, h2⟩ := integrateNoFurther_broken n (min tf (s.time + c.maxStep)) hb hne
    unfold integrateTo
    split
    · rename_i s' e heq
      rw [heq] at h1
      exact ⟨h1, nofun⟩
    · rename_i s' heq
      exact absurd (by rw [heq]) h2

theorem integrateTo_inv (hu : Usable c) (n : Nat) (tf : R) : ∀ (m : Nat) (s : State R), Inv c s → s.initialized = true →
    s.time ≤ tf → s.state ≠ [] → Good c s →
      Inv c (integrateTo c n tf m s).1 ∧ Frame s (integrateTo c n tf m s).1 ∧
      (Good c (integrateTo c n tf m s).1 ∨ Broken c (integrateTo c n tf m s).1) ∧
      ((integrateTo c n tf m s).2 = .ok () → (integrateTo c n tf m s).1.time = tf ∧ Good c (integrateTo c n tf m s).1 ∧
        (Acc c s → Acc c (integrateTo c n tf m s).1))
  | 0, s, hi, _, _, _, hg => ⟨hi, Frame.refl _, .inl hg, fun h => by cases h⟩
  | m + 1, s, hi, hin, hle, hne, hg => by
    have hms := hi.maxStep_nonneg hin
    obtain ⟨h1, h2, h3, h4⟩ := integrateNoFurther_spec hu n s hi hin hne (min tf (s.time + c.maxStep)) (le_min hle (by linarith))
    rw [min_gap] at h3 h4
    unfold integrateTo
    generalize integrateNoFurther c n s (min tf (s.time + c.maxStep)) = r at h1 h2 h3 h4 ⊢
    obtain ⟨s', r⟩ := r
    dsimp only at h1 h2 h3 h4
    cases r with
    | error e => exact ⟨h2, h1, hg.failed h1 (h3 e rfl), fun hf => by cases hf⟩
    | ok u =>
      dsimp only
      obtain ⟨h, k1, k2, k3, ha⟩ := h4 rfl
      have hle' : s'.time ≤ tf := by
        rw [ha.went.time]; have := ha.le.trans (min_le_right _ _); linarith
      have hg' := hg.went h1 ha.nonneg ha.max ha.went
      have hne' : s'.state ≠ [] := fun hh => hne (List.eq_nil_of_length_eq_zero (by rw [← h1.len, hh]; rfl))
      split
      · obtain ⟨j1, j2, j3, j4⟩ := integrateTo_inv hu n tf m s' h2 (h1.initialized.trans hin) hle' hne' hg'
        refine ⟨j1, h1.trans j2, j3, fun hf => ?_⟩
        obtain ⟨q1, q2, q3⟩ := j4 hf
        exact ⟨q1, q2, fun hac => q3 (hac.went hi hin h1 ha)⟩
      · rename_i hlt
        exact ⟨h2, h1, .inl hg', fun _ => ⟨le_antisymm hle' (not_lt.1 hlt), hg', fun hac => hac.went hi hin h1 ha⟩⟩

theorem setUp_spec (s : State R) (c : Setup R) : (setUp c s = (s, .error (.err .throws)) ∧
      ¬ (0 ≤ c.initialStep ∧ c.initialStep ≤ c.maxStep)) ∨
    (setUp c s = ({ s with accuracy := min c.accuracy (1 / 10), initialized := true }, .ok ()) ∧
      0 ≤ c.initialStep ∧ c.initialStep ≤ c.maxStep) := by
  unfold setUp
  split
  · rename_i h; exact .inl ⟨rfl, fun hh => by linarith [hh.1.trans hh.2]⟩
  · split
    · rename_i h; exact .inl ⟨rfl, fun hh => by linarith [hh.2]⟩
    · split
      · rename_i h; exact .inl ⟨rfl, fun hh => by linarith [hh.1]⟩
      · rename_i h1 h2 h3
        refine .inr ⟨?_, by linarith, by linarith⟩
        congr 2
        split
        · rename_i h; rw [min_eq_right h.le]
        · rename_i h; rw [min_eq_left (not_lt.1 h)]

/-- The values of a problem are of the right sizes. -/
def Fits (c : Setup R) (p : Problem R) : Prop := p.x0.length = c.defaults.x0.length ∧ p.k.length = c.defaults.k.length

theorem sanitize_ok {tf : R} {v : Values R} {d p : Problem R} : sanitize d tf v = .ok p ↔
    p = ⟨v.t0.getD d.t0, v.x0.getD d.x0, v.k.getD d.k⟩ ∧ p.t0 ≤ tf ∧ p.x0.length = d.x0.length ∧ p.k.length = d.k.length := by
  unfold sanitize
  dsimp only
  constructor
  · intro h
    split at h
    · cases h
    · split at h
      · cases h
      · split at h
        · cases h
        · rename_i h1 h2 h3
          cases h
          exact ⟨rfl, not_lt.1 h1, not_not.1 h2, not_not.1 h3⟩
  · rintro ⟨rfl, h1, h2, h3⟩
    rw [if_neg (not_lt.2 h1), if_neg (not_not.2 h2), if_neg (not_not.2 h3)]

theorem inv_fresh (c : Setup R) : Inv c (fresh c) := ⟨rfl, rfl, fun _ h => (by cases h), fun h => (by cases h)⟩

theorem inv_reset {p : Problem R} (h : p.x0.length = c.defaults.x0.length) (s : State R) : Inv c (reset c p s) :=
  ⟨rfl, h, fun _ h => (by cases h), fun h => (by cases h)⟩

theorem good_fresh (c : Setup R) : Good c (fresh c) := .start _ _ _ _

theorem good_reset (c : Setup R) (p : Problem R) (s : State R) : Good c (reset c p s) := .start _ _ _ _

theorem acc_fresh (c : Setup R) : Acc c (fresh c) := .start _ _ _ _

theorem acc_reset (c : Setup R) (p : Problem R) (s : State R) : Acc c (reset c p s) := .start _ _ _ _

theorem Inv.setUp (hi : Inv c s) (h1 : 0 ≤ c.initialStep) (h2 : c.initialStep ≤ c.maxStep) :
    Inv c { s with accuracy := min c.accuracy (1 / 10), initialized := true } :=
  ⟨hi.same, hi.len, hi.ideal, fun _ => ⟨rfl, h1, h2⟩⟩

/-- The state in which `solve` starts to integrate. -/
theorem prepared {tf : R} {p : Problem R} {s : State R} (hi : Inv c s) (h0 : p.t0 ≤ tf) (hl : p.x0.length = c.defaults.x0.length) :
    Inv c (resetIfNecessary c tf p s) ∧ (resetIfNecessary c tf p s).current = p ∧ (resetIfNecessary c tf p s).time ≤ tf ∧
    (Good c s → Good c (resetIfNecessary c tf p s)) ∧ (Acc c s → Acc c (resetIfNecessary c tf p s)) ∧
    (Broken c s → Good c (resetIfNecessary c tf p s) ∨ Broken c (resetIfNecessary c tf p s)) := by
  unfold resetIfNecessary
  split
  · exact ⟨inv_reset hl s, rfl, h0, fun _ => good_reset c p s, fun _ => acc_reset c p s, fun _ => .inl (good_reset c p s)⟩
  · rename_i h
    simp only [not_or, ne_eq, not_not, not_lt] at h
    exact ⟨hi, h.1.symm, h.2, id, id, .inr⟩

theorem Good.setUp (hg : Good c s) {a : R} {b : Bool} : Good c { s with accuracy := a, initialized := b } := hg

theorem Broken.setUp (hg : Broken c s) {a : R} {b : Bool} : Broken c { s with accuracy := a, initialized := b } := hg

theorem solve_spec (hu : Usable c) (hne : c.defaults.x0 ≠ []) (n m : Nat) (tf : R) (v : Values R) (s : State R) (hi : Inv c s)
    (hg : Good c s ∨ Broken c s) :
    Inv c (solve c n m tf v s).1 ∧ (Good c (solve c n m tf v s).1 ∨ Broken c (solve c n m tf v s).1) ∧
    ∀ x, (solve c n m tf v s).2 = .ok x →
      (solve c n m tf v s).1.time = tf ∧ (solve c n m tf v s).1.state = x ∧
      sanitize c.defaults tf v = .ok (solve c n m tf v s).1.current ∧ Good c (solve c n m tf v s).1 ∧
      0 ≤ c.initialStep ∧ c.initialStep ≤ c.maxStep ∧ (Acc c s → Acc c (solve c n m tf v s).1) := by
  unfold solve
  cases hp : sanitize c.defaults tf v with
  | error e => exact ⟨hi, hg, nofun⟩
  | ok p =>
    obtain ⟨-, h0, hl, -⟩ := sanitize_ok.1 hp
    obtain ⟨p1, p2, p3, p4, p5, p6⟩ := prepared hi h0 hl
    have p7 : Good c (resetIfNecessary c tf p s) ∨ Broken c (resetIfNecessary c tf p s) := hg.elim (fun h => .inl (p4 h)) p6
    dsimp only
    generalize resetIfNecessary c tf p s = s1 at p1 p2 p3 p4 p5 p7 ⊢
    have key : ∀ s2 : State R, Inv c s2 → s2.initialized = true → s2.current = p → s2.time ≤ tf → (Good c s2 ∨ Broken c s2) →
        (Acc c s1 → Acc c s2) →
        ∀ r : State R × Except Stop (List R), r = (match integrateTo c n tf m s2 with
          | (s'', .error e) => (s'', .error e)
          | (s'', .ok ()) => (s'', .ok s''.state)) →
        Inv c r.1 ∧ (Good c r.1 ∨ Broken c r.1) ∧ ∀ x, r.2 = .ok x → r.1.time = tf ∧ r.1.state = x ∧
          Except.ok p = (Except.ok r.1.current : Except Err _) ∧ Good c r.1 ∧ 0 ≤ c.initialStep ∧ c.initialStep ≤ c.maxStep ∧
          (Acc c s → Acc c r.1) := by
      intro s2 q1 q2 q3 q4 q5 q6 r hr
      have hne2 : s2.state ≠ [] := fun hh => hne (List.eq_nil_of_length_eq_zero (by rw [← q1.len, hh]; rfl))
      rcases q5 with q5 | q5
      · obtain ⟨j1, j2, j3, j4⟩ := integrateTo_inv hu n tf m s2 q1 q2 q4 hne2 q5
        generalize integrateTo c n tf m s2 = r' at j1 j2 j3 j4 hr
        obtain ⟨s3, r'⟩ := r'
        cases r' with
        | error e => subst hr; exact ⟨j1, j3, nofun⟩
        | ok u =>
          subst hr
          obtain ⟨o1, o2, o3⟩ := j4 rfl
          exact ⟨j1, j3, fun x hx => ⟨o1, Except.ok.inj hx, by rw [j2.current, q3], o2, (q1.init q2).2.1, (q1.init q2).2.2,
            fun ha => o3 (q6 (p5 ha))⟩⟩
      · obtain ⟨j1, j2⟩ := integrateTo_broken n tf m q5 hne2
        generalize integrateTo c n tf m s2 = r' at j1 j2 hr
        obtain ⟨s3, r'⟩ := r'
        cases j1
        cases r' with
        | error e => subst hr; exact ⟨q1, .inr q5, nofun⟩
        | ok u => exact absurd rfl j2
    split
    · rename_i s2 e heq
      split at heq
      · rcases setUp_spec s1 c with ⟨h, -⟩ | ⟨h, -⟩
        · rw [h] at heq; cases heq; exact ⟨p1, p7, nofun⟩
        · rw [h] at heq; cases heq
      · cases heq
    · rename_i s2 heq
      split at heq
      · rcases setUp_spec s1 c with ⟨h, -⟩ | ⟨h, h1, h2⟩
        · rw [h] at heq; cases heq
        · rw [h] at heq; cases heq
          exact key _ (p1.setUp h1 h2) rfl p2 p3 p7 id _ rfl
      · rename_i hin
        cases heq
        exact key _ p1 (by simpa using hin) p2 p3 p7 id _ rfl

/-! ### Dense output -/

/-- The pieces join the points with the slopes there. -/
def Joins (f : Rhs R) (knots : List (R × List R)) (d : List (Piece R)) : Prop :=
  d.length + 1 = knots.length ∧ ∀ (i : Nat) p a b, d[i]? = some p → knots[i]? = some a → knots[i + 1]? = some b →
    (p.t0, p.x0) = a ∧ (p.t1, p.x1) = b ∧ Slope f a.1 a.2 p.d0 ∧ Slope f b.1 b.2 p.d1

/-- The dense output up to the state. -/
def Dense (c : Setup R) (s : State R) : Prop :=
  ∃ d knots, s.dense = some d ∧
    Steps (c.rhs s.k) (Accurate c.maxStep (min c.accuracy (1 / 10))) s.current.t0 s.current.x0 knots ∧
    knots.getLast? = some (s.time, s.state) ∧ Joins (c.rhs s.k) knots d

theorem Joins.snoc {f : Rhs R} {knots : List (R × List R)} {d : List (Piece R)} (hj : Joins f knots d) {p : Piece R}
    (hl : knots.getLast? = some (p.t0, p.x0)) (h0 : Slope f p.t0 p.x0 p.d0) (h1 : Slope f p.t1 p.x1 p.d1) :
    Joins f (knots ++ [(p.t1, p.x1)]) (d ++ [p]) := by
  obtain ⟨j1, j2⟩ := hj
  refine ⟨by simp [j1], fun i q a b hq ha hb => ?_⟩
  rcases lt_trichotomy i d.length with hi | hi | hi
  · rw [List.getElem?_append_left hi] at hq
    rw [List.getElem?_append_left (by omega)] at ha hb
    exact j2 i q a b hq ha hb
  · subst hi
    rw [List.getElem?_append_left (by omega)] at ha
    rw [List.getElem?_append_right (by omega)] at hq hb
    rw [List.getLast?_eq_getElem?, ← j1, Nat.add_sub_cancel, ha] at hl
    cases hl
    simp only [Nat.sub_self, List.getElem?_cons_zero, Option.some.injEq] at hq
    subst hq
    simp only [j1, Nat.sub_self, List.getElem?_cons_zero, Option.some.injEq] at hb
    subst hb
    exact ⟨rfl, rfl, h0, h1⟩
  · rw [List.getElem?_eq_none (by simp; omega)] at hq
    cases hq

theorem Dense.upToDate (hd : Dense c s) : UpToDate s := by
  obtain ⟨d, knots, h1, -, h3, j1, j2⟩ := hd
  intro d' p hd' hp
  rw [h1] at hd'
  cases hd'
  rw [List.getLast?_eq_getElem?] at hp h3
  have hlt : d.length - 1 < d.length := (List.getElem?_eq_some_iff.1 hp).1
  rw [← j1, Nat.add_sub_cancel] at h3
  have := j2 (d.length - 1) p _ _ hp (List.getElem?_eq_getElem (by omega)) (by rw [Nat.sub_add_cancel (by omega)]; exact h3)
  exact (Prod.mk.inj this.2.1).1

theorem Dense.went {hmax h : R} {k1 k2 k3 : List R} {full : Bool} (hd : Dense c s) (hi : Inv c s) (hin : s.initialized = true)
    (hf : Frame s s') (hw : Advanced c s s' hmax full h k1 k2 k3) : Dense c s' := by
  have hr := hw.recorded hd.upToDate
  obtain ⟨d, knots, h1, h2, h3, h4⟩ := hd
  rcases hr with ⟨r1, -⟩ | ⟨d', d1, r1, r2, r3, r4⟩
  · rw [r1] at h1; cases h1
  · rw [r1] at h1
    cases h1
    refine ⟨_, knots ++ [(s'.time, s'.state)], r2, ?_, by simp, ?_⟩
    · rw [hf.k, hf.current, hw.went.time, hw.went.state]
      refine h2.snoc h3 ⟨⟨r3, hw.max⟩, ?_⟩ hw.went.stages
      rw [← (hi.init hin).1]
      exact hw.small
    · rw [hf.k]
      exact h4.snoc (p := ⟨s.time, s.state, k1, s'.time, s'.state, d1⟩) h3 hw.went.stages.first r4

theorem integrateTo_dense (hu : Usable c) (n : Nat) (tf : R) : ∀ (m : Nat) (s : State R), Inv c s → s.initialized = true →
    s.time ≤ tf → s.state ≠ [] → Dense c s → (integrateTo c n tf m s).2 = .ok () → Dense c (integrateTo c n tf m s).1
  | 0, s, _, _, _, _, _ => fun h => by cases h
  | m + 1, s, hi, hin, hle, hne, hg => by
    have hms := hi.maxStep_nonneg hin
    obtain ⟨h1, h2, h3, h4⟩ := integrateNoFurther_spec hu n s hi hin hne (min tf (s.time + c.maxStep)) (le_min hle (by linarith))
    rw [min_gap] at h3 h4
    unfold integrateTo
    generalize integrateNoFurther c n s (min tf (s.time + c.maxStep)) = r at h1 h2 h3 h4 ⊢
    obtain ⟨s', r⟩ := r
    dsimp only at h1 h2 h3 h4
    cases r with
    | error e => intro hf; cases hf
    | ok u =>
      dsimp only
      obtain ⟨h, k1, k2, k3, ha⟩ := h4 rfl
      have hle' : s'.time ≤ tf := by
        rw [ha.went.time]; have := ha.le.trans (min_le_right _ _); linarith
      have hg' := hg.went hi hin h1 ha
      have hne' : s'.state ≠ [] := fun hh => hne (List.eq_nil_of_length_eq_zero (by rw [← h1.len, hh]; rfl))
      split
      · exact integrateTo_dense hu n tf m s' h2 (h1.initialized.trans hin) hle' hne' hg'
      · exact fun _ => hg'

theorem denseSolve_spec (hu : Usable c) (n m : Nat) (tf : R) (v : Values R) (s : State R) (hi : Inv c s) (hg : Good c s ∨ Broken c s) :
    Inv c (denseSolve c n m tf v s).1 ∧ (Good c (denseSolve c n m tf v s).1 ∨ Broken c (denseSolve c n m tf v s).1) ∧
    ∀ d, (denseSolve c n m tf v s).2 = .ok d →
      ∃ p knots, sanitize c.defaults tf v = .ok p ∧ Acc c (denseSolve c n m tf v s).1 ∧
        Steps (c.rhs p.k) (Accurate c.maxStep (min c.accuracy (1 / 10))) p.t0 p.x0 knots ∧
        knots.getLast? = some (tf, (denseSolve c n m tf v s).1.state) ∧ Joins (c.rhs p.k) knots d ∧ d ≠ [] := by
  unfold denseSolve
  cases hp : sanitize c.defaults tf v with
  | error e => exact ⟨hi, hg, nofun⟩
  | ok p =>
    obtain ⟨-, h0, hl, -⟩ := sanitize_ok.1 hp
    dsimp only
    rcases setUp_spec (reset c p s) c with ⟨h, -⟩ | ⟨h, h1, h2⟩
    · rw [h]; exact ⟨inv_reset hl s, .inl (good_reset c p s), nofun⟩
    · rw [h]
      dsimp only
      split
      · exact ⟨(inv_reset hl s).setUp h1 h2, .inl (good_reset c p s), nofun⟩
      · rename_i hne
        have hne' : p.x0 ≠ [] := fun hh => hne (by show p.x0.length = 0; rw [hh]; rfl)
        have i0 : Inv c { { reset c p s with accuracy := min c.accuracy (1 / 10), initialized := true } with dense := some [] } :=
          ⟨rfl, hl, nofun, fun _ => ⟨rfl, h1, h2⟩⟩
        have d0 : Dense c { { reset c p s with accuracy := min c.accuracy (1 / 10), initialized := true } with dense := some [] } :=
          ⟨[], [(p.t0, p.x0)], rfl, ⟨rfl, List.isChain_singleton _⟩, rfl, rfl, fun i q a b hq _ _ => by simp at hq⟩
        obtain ⟨j1, j2, j3, j4⟩ := integrateTo_inv hu n tf m _ i0 rfl h0 hne' (good_reset c p s)
        have j5 := integrateTo_dense hu n tf m _ i0 rfl h0 hne' d0
        generalize integrateTo c n tf m
          { { reset c p s with accuracy := min c.accuracy (1 / 10), initialized := true } with dense := some [] } = r at j1 j2 j3 j4 j5 ⊢
        obtain ⟨s', r⟩ := r
        cases r with
        | error e => exact ⟨j1, j3, nofun⟩
        | ok u =>
          obtain ⟨o1, o2, o3⟩ := j4 rfl
          obtain ⟨d, knots, g1, g2, g3, g4⟩ := j5 rfl
          dsimp only at g1 g2 g3 g4 o1 o2 o3 j1 j2 j3 ⊢
          rw [g1]
          have hc : s'.current = p := j2.current
          have hk : s'.k = p.k := j2.k
          refine ⟨⟨j1.1, j1.2, j1.3, j1.4⟩, .inl o2, fun d' hd' => ?_⟩
          dsimp only at hd'
          split at hd'
          · cases hd'
          · rename_i hdn
            cases hd'
            rw [hk, hc] at g2
            rw [hk] at g4
            rw [o1] at g3
            exact ⟨p, knots, rfl, o3 (acc_reset c p s), g2, g3, g4, hdn⟩

theorem call_inv (hu : Usable c) (hne : c.defaults.x0 ≠ []) (n m : Nat) (a : Call R) (hi : Inv c s) (hg : Good c s ∨ Broken c s) :
    Inv c (call c n m a s) ∧ (Good c (call c n m a s) ∨ Broken c (call c n m a s)) := by
  cases a with
  | solve tf v => exact ⟨(solve_spec hu hne n m tf v s hi hg).1, (solve_spec hu hne n m tf v s hi hg).2.1⟩
  | denseSolve tf v => exact ⟨(denseSolve_spec hu n m tf v s hi hg).1, (denseSolve_spec hu n m tf v s hi hg).2.1⟩

theorem after_induct (c : Setup R) (n m : Nat) {P : State R → Prop} (h0 : P (fresh c)) (calls : List (Call R))
    (h : ∀ a ∈ calls, ∀ s, P s → P (call c n m a s)) : P (after c n m calls) := by
  unfold after
  generalize fresh c = s at h0
  induction calls generalizing s with
  | nil => exact h0
  | cons a l ih => exact ih (fun b hb => h b (List.mem_cons_of_mem _ hb)) _ (h a List.mem_cons_self _ h0)

theorem after_inv (hu : Usable c) (hne : c.defaults.x0 ≠ []) (n m : Nat) (calls : List (Call R)) :
    Inv c (after c n m calls) ∧ (Good c (after c n m calls) ∨ Broken c (after c n m calls)) :=
  after_induct c n m (P := fun s => Inv c s ∧ (Good c s ∨ Broken c s)) ⟨inv_fresh c, .inl (good_fresh c)⟩ calls
    fun a _ _ hs => call_inv hu hne n m a hs.1 hs.2

theorem after_snoc (c : Setup R) (n m : Nat) (calls : List (Call R)) (a : Call R) :
    after c n m (calls ++ [a]) = call c n m a (after c n m calls) := by
  simp [after, List.foldl_append]

theorem call_acc (hu : Usable c) (hne : c.defaults.x0 ≠ []) (n m : Nat) (a : Call R) (hi : Inv c s) (hg : Good c s ∨ Broken c s)
    (ha : Acc c s) (hr : Returned c n m s a) : Acc c (call c n m a s) := by
  cases a with
  | solve tf v =>
    obtain ⟨x, hx⟩ := hr
    exact ((solve_spec hu hne n m tf v s hi hg).2.2 x hx).2.2.2.2.2.2 ha
  | denseSolve tf v =>
    obtain ⟨d, hd⟩ := hr
    obtain ⟨p, knots, -, h, -⟩ := (denseSolve_spec hu n m tf v s hi hg).2.2 d hd
    exact h

theorem after_acc (hu : Usable c) (hne : c.defaults.x0 ≠ []) (n m : Nat) (calls : List (Call R)) :
    (∀ pre a post, calls = pre ++ a :: post → Returned c n m (after c n m pre) a) → Acc c (after c n m calls) := by
  induction calls using List.reverseRecOn with
  | nil => exact fun _ => acc_fresh c
  | append_singleton l a ih =>
    intro h
    rw [after_snoc]
    obtain ⟨h1, h2⟩ := after_inv hu hne n m l
    refine call_acc hu hne n m a h1 h2 (ih fun pre b post hl => h pre b (post ++ [a]) (by rw [hl]; simp)) (h l a [] rfl)

theorem reset_eq (c : Setup R) (p : Problem R) (s s' : State R) : reset c p s = reset c p s' := rfl

theorem reset_fresh (c : Setup R) : reset c c.defaults (fresh c) = fresh c := rfl

theorem resetIfNecessary_fresh {tf : R} {p : Problem R} (h : p.t0 ≤ tf) : resetIfNecessary c tf p (fresh c) = reset c p (fresh c) := by
  unfold resetIfNecessary
  by_cases hp : p = c.defaults
  · subst hp
    rw [if_neg]
    · rfl
    · simp only [fresh, ne_eq, not_true_eq_false, false_or, not_lt]; exact h
  · rw [if_pos (.inl hp)]

/-- A call that is accepted by the checks and resets does what it does in a new problem. -/
theorem solve_reset {n m : Nat} {tf : R} {v : Values R} {p : Problem R} (hp : sanitize c.defaults tf v = .ok p)
    (h : p ≠ s.current ∨ tf < s.time) : solve c n m tf v s = solve c n m tf v (fresh c) := by
  unfold solve
  simp only [hp]
  rw [resetIfNecessary_fresh (sanitize_ok.1 hp).2.1]
  unfold resetIfNecessary
  rw [if_pos h, reset_eq c p s (fresh c)]

/-! ### States without elements -/

theorem integrateTo_empty (n : Nat) (tf : R) : ∀ (m : Nat) (s : State R), s.state = [] → (integrateTo c n tf m s).1.state = []
  | 0, _, h => h
  | m + 1, s, h => by
    have : (integrateNoFurther c n s (min tf (s.time + c.maxStep))).1.state = [] := by
      unfold integrateNoFurther
      split
      · exact h
      · split
        · exact h
        · rw [if_pos (by rw [h]; rfl)]; exact h
    unfold integrateTo
    generalize integrateNoFurther c n s (min tf (s.time + c.maxStep)) = r at this ⊢
    obtain ⟨s', r⟩ := r
    cases r with
    | error e => exact this
    | ok u =>
      dsimp only
      split
      · exact integrateTo_empty n tf m s' this
      · exact this

theorem setUp_state (s : State R) : (setUp c s).1.state = s.state := by
  rcases setUp_spec s c with ⟨h, -⟩ | ⟨h, -⟩ <;> rw [h]

theorem solve_empty_state (hne : c.defaults.x0 = []) (n m : Nat) (tf : R) (v : Values R) (hs : s.state = []) :
    (solve c n m tf v s).1.state = [] ∧ ∀ x, (solve c n m tf v s).2 = .ok x → x = [] := by
  unfold solve
  cases hp : sanitize c.defaults tf v with
  | error e => exact ⟨hs, nofun⟩
  | ok p =>
    obtain ⟨-, -, hl, -⟩ := sanitize_ok.1 hp
    have hx : p.x0 = [] := List.eq_nil_of_length_eq_zero (by rw [hl, hne]; rfl)
    have h1 : (resetIfNecessary c tf p s).state = [] := by
      unfold resetIfNecessary
      split
      · exact hx
      · exact hs
    dsimp only
    generalize resetIfNecessary c tf p s = s1 at h1 ⊢
    have h2 : (if s1.initialized = false then setUp c s1 else (s1, .ok ())).1.state = [] := by
      split
      · rw [setUp_state]; exact h1
      · exact h1
    generalize (if s1.initialized = false then setUp c s1 else (s1, .ok ())) = r at h2 ⊢
    obtain ⟨s2, r⟩ := r
    cases r with
    | error e => exact ⟨h2, nofun⟩
    | ok u =>
      have h3 := integrateTo_empty (c := c) n tf m s2 h2
      dsimp only
      generalize integrateTo c n tf m s2 = r at h3 ⊢
      obtain ⟨s3, r⟩ := r
      cases r with
      | error e => exact ⟨h3, nofun⟩
      | ok u => exact ⟨h3, fun x hx => (Except.ok.inj hx).symm.trans h3⟩

theorem denseSolve_empty_state (hne : c.defaults.x0 = []) (n m : Nat) (tf : R) (v : Values R) (hs : s.state = []) :
    (denseSolve c n m tf v s).1.state = [] ∧ (denseSolve c n m tf v s).2 = .error (.err .throws) := by
  unfold denseSolve
  cases hp : sanitize c.defaults tf v with
  | error e =>
    refine ⟨hs, ?_⟩
    unfold sanitize at hp
    dsimp only at hp
    split at hp
    · cases hp; rfl
    · split at hp
      · cases hp; rfl
      · split at hp
        · cases hp; rfl
        · cases hp
  | ok p =>
    obtain ⟨-, -, hl, -⟩ := sanitize_ok.1 hp
    have hx : p.x0 = [] := List.eq_nil_of_length_eq_zero (by rw [hl, hne]; rfl)
    dsimp only
    rcases setUp_spec (reset c p s) c with ⟨h, -⟩ | ⟨h, -⟩
    · rw [h]; exact ⟨hx, rfl⟩
    · rw [h]
      dsimp only
      rw [if_pos (show (reset c p s).state.length = 0 by show p.x0.length = 0; rw [hx]; rfl)]
      exact ⟨hx, rfl⟩

end Maliput.Ivp
