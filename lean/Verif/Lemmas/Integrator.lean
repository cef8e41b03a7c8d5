import Verif.Model.Integrator
import Verif.Spec.Integrator
import Mathlib.Tactic.Linarith
import Mathlib.Tactic.Ring
import Mathlib.Tactic.FieldSimp
import Mathlib.Algebra.Order.Archimedean.Basic

set_option autoImplicit false
set_option linter.unusedSectionVars false

/-! Lemmas for the integrators: the step size control. -/
namespace Maliput.Ode

open Maliput Piecewise Spec
open Maliput.RouteGraph (Stop)

variable {R κ : Type} [Field R] [LinearOrder R] [IsStrictOrderedRing R] [DecidableEq κ]

/-- The relative size of the smallest step. -/
def tol : R := 1 / 100000000000000

theorem tol_pos : (0 : R) < tol := by unfold tol; positivity

theorem workingMinimum_eq (t : R) : workingMinimum t = tol * max 1 |t| := by
  unfold workingMinimum
  have h := tol_pos (R := R)
  rw [mul_max_of_nonneg _ _ h.le, mul_one, max_eq_left (le_max_of_le_left (by have := h.le; unfold tol at this; exact this))]
  unfold tol; rw [mul_comm |t|]

theorem tol_le_workingMinimum (t : R) : tol ≤ workingMinimum t := by
  rw [workingMinimum_eq]
  exact le_mul_of_one_le_right tol_pos.le (le_max_left _ _)

theorem workingMinimum_le {t b : R} (h : |t| ≤ b) : workingMinimum t ≤ tol * max 1 b := by
  rw [workingMinimum_eq]
  exact mul_le_mul_of_nonneg_left (max_le_max (le_refl _) h) tol_pos.le

theorem rk3_fst (f : R → R → R) (t x h : R) : (rk3 f t x h).1 = kutta f t x h := by
  simp only [rk3, kutta]
  rw [show x + -h * f t x + 2 * h * f (t + h / 2) (x + h / 2 * f t x) =
    x - h * f t x + 2 * h * f (t + h / 2) (x + h / 2 * f t x) by ring]
  ring

theorem rk3_snd (f : R → R → R) (t x h : R) : (rk3 f t x h).2 = errorEstimate f t x h := by
  simp only [rk3, errorEstimate]
  rw [show x + -h * f t x + 2 * h * f (t + h / 2) (x + h / 2 * f t x) =
    x - h * f t x + 2 * h * f (t + h / 2) (x + h / 2 * f t x) by ring]
  rw [← abs_neg]
  congr 1
  ring

theorem kutta_zero (f : R → R → R) (t x : R) : kutta f t x 0 = x := by simp [kutta]

theorem errorEstimate_zero (f : R → R → R) (t x : R) : errorEstimate f t x 0 = 0 := by simp [errorEstimate]

theorem errorEstimate_nonneg (f : R → R → R) (t x h : R) : 0 ≤ errorEstimate f t x h := abs_nonneg _

/-- The right hand side for the parameters of the state. -/
abbrev Setup.rhs (c : Setup R κ) (k : κ) : R → R → R := fun t x => c.f t x k

/-- What a step does not change. -/
structure Frame (s s' : State R κ) : Prop where
  k : s'.k = s.k
  current : s'.current = s.current
  initialized : s'.initialized = s.initialized
  accuracy : s'.accuracy = s.accuracy

theorem Frame.refl (s : State R κ) : Frame s s := ⟨rfl, rfl, rfl, rfl⟩

theorem Frame.trans {s s' s'' : State R κ} (h : Frame s s') (h' : Frame s' s'') : Frame s s'' :=
  ⟨h'.k.trans h.k, h'.current.trans h.current, h'.initialized.trans h.initialized, h'.accuracy.trans h.accuracy⟩

theorem step_spec (c : Setup R κ) (s : State R κ) (h : R) :
    Frame s (step c.f s h).1 ∧ (step c.f s h).1.ideal = s.ideal ∧ (step c.f s h).1.time = s.time + h ∧
      (step c.f s h).1.state = kutta (c.rhs s.k) s.time s.state h ∧
      (∀ e, (step c.f s h).2 = .ok e → e = errorEstimate (c.rhs s.k) s.time s.state h) ∧
      (s.dense = none → (step c.f s h).1.dense = none ∧
        (step c.f s h).2 = .ok (errorEstimate (c.rhs s.k) s.time s.state h)) := by
  have e1 := rk3_fst (c.rhs s.k) s.time s.state h
  have e2 := rk3_snd (c.rhs s.k) s.time s.state h
  unfold step doStep
  dsimp only
  split
  · rename_i hd
    exact ⟨⟨rfl, rfl, rfl, rfl⟩, rfl, rfl, e1, fun e he => (Except.ok.inj he).symm.trans e2, fun _ => ⟨hd, congrArg _ e2⟩⟩
  · rename_i d hd
    split
    · exact ⟨⟨rfl, rfl, rfl, rfl⟩, rfl, rfl, e1, fun e he => (by cases he), fun h => by rw [h] at hd; cases hd⟩
    · split
      · exact ⟨⟨rfl, rfl, rfl, rfl⟩, rfl, rfl, e1, fun e he => (by cases he), fun h => by rw [h] at hd; cases hd⟩
      · exact ⟨⟨rfl, rfl, rfl, rfl⟩, rfl, rfl, e1, fun e he => (Except.ok.inj he).symm.trans e2,
          fun h => by rw [h] at hd; cases hd⟩

/-- The cube root of a number of the unit interval is not above one. -/
def RootOk (root : R → R) : Prop := ∀ x, 0 ≤ x → x ≤ 1 → root x ≤ 1

/-- What `calcAdjusted` does when the error is too large. -/
theorem calcAdjusted_large {root : R → R} (hroot : RootOk root) {accuracy maxStep t err taken : R} {atMin : Bool}
    (ha : 0 ≤ accuracy) (ht : 0 ≤ taken) (hm : taken ≤ maxStep) (h : accuracy < err)
    (hp : 0 < taken) :
    (atMin = true → calcAdjusted root accuracy maxStep t err taken atMin = .ok (true, taken, true)) ∧
    (atMin = false → (calcAdjusted root accuracy maxStep t err taken atMin = .error .throws ∧ taken < 10 * workingMinimum t) ∨
      ∃ next, calcAdjusted root accuracy maxStep t err taken atMin = .ok (false, next, decide (next = workingMinimum t)) ∧
        next ≤ 9 / 10 * taken ∧ workingMinimum t ≤ next) := by
  have he : 0 < err := ha.trans_lt h
  have hg : 9 / 10 * taken * root (accuracy / err) ≤ 9 / 10 * taken := by
    have := hroot (accuracy / err) (div_nonneg ha he.le) ((div_le_one he).2 h.le)
    have h9 : 0 ≤ 9 / 10 * taken := by positivity
    nlinarith
  have hgt : ¬ 9 / 10 * taken * root (accuracy / err) > taken := by
    intro hh; linarith
  have hlt : 9 / 10 * taken * root (accuracy / err) < taken := by linarith
  unfold calcAdjusted
  simp only [if_neg he.ne', hgt, false_and, if_false, hlt, true_and, if_true, if_neg (not_le.2 h)]
  constructor
  · intro hm; rw [hm]; rfl
  · intro hat
    rw [hat]
    simp only [Bool.false_eq_true, if_false]
    rw [min_eq_left hg]
    set new := min (max (min (9 / 10 * taken * root (accuracy / err)) (5 * taken)) (1 / 10 * taken)) maxStep with hnew
    have h1 : new ≤ 9 / 10 * taken := by
      rw [hnew]
      refine (min_le_left _ _).trans (max_le ((min_le_left _ _).trans hg) ?_)
      linarith
    have h2 : 1 / 10 * taken ≤ new := le_min (le_max_right _ _) (by linarith)
    by_cases hw : new < workingMinimum t
    · left
      rw [if_pos ⟨hw, by linarith⟩]
      exact ⟨rfl, by linarith⟩
    · right
      rw [if_neg (fun hh => hw hh.1), max_eq_left (not_lt.1 hw)]
      refine ⟨new, ?_, h1, not_lt.1 hw⟩
      by_cases hn : new = workingMinimum t
      · rw [if_pos hn, if_pos ⟨hn, by linarith⟩]
        simp [hn]; rfl
      · rw [if_neg hn, if_neg (fun hh => hn hh.1)]
        have : ¬ taken ≤ new := by linarith
        simp [this, hn]; rfl

/-- What `calcAdjusted` does when the error is small enough. -/
theorem calcAdjusted_small {root : R → R} {accuracy maxStep t err taken : R} (atMin : Bool)
    (ht : 0 ≤ taken) (hm : taken ≤ maxStep) (h : err ≤ accuracy) :
    ∃ next b, calcAdjusted root accuracy maxStep t err taken atMin = .ok (true, next, b) ∧
      (next = taken ∧ atMin = true ∨ workingMinimum t ≤ next) ∧ taken ≤ next ∧ next ≤ max maxStep (workingMinimum t) := by
  unfold calcAdjusted
  dsimp only
  generalize hg : (if err = 0 then 5 * taken else 9 / 10 * taken * root (accuracy / err)) = guess
  generalize hb : (if guess > taken then false else atMin) = b
  have hbt : b = true → atMin = true := by rw [← hb]; split <;> simp
  generalize hn : (if guess > taken ∧ guess < 6 / 5 * taken then taken else guess) = new
  by_cases h1 : new < taken ∧ b = true
  · rw [if_pos h1]
    exact ⟨taken, b, rfl, .inl ⟨rfl, hbt h1.2⟩, le_refl _, le_max_of_le_left hm⟩
  · rw [if_neg h1, if_pos h]
    generalize hn2 : (if new < taken then taken else new) = new2
    have g2 : taken ≤ new2 := by rw [← hn2]; split <;> linarith
    have g3 : taken ≤ min (max (min new2 (5 * taken)) (1 / 10 * taken)) maxStep :=
      le_min (le_max_of_le_left (le_min g2 (by linarith))) hm
    rw [if_neg (fun hh => absurd hh.2 (not_lt.2 g3))]
    have g4 := min_le_right (max (min new2 (5 * taken)) (1 / 10 * taken)) maxStep
    generalize min (max (min new2 (5 * taken)) (1 / 10 * taken)) maxStep = new3 at g3 g4 ⊢
    have g5 : taken ≤ max new3 (workingMinimum t) := le_max_of_le_left g3
    refine ⟨max new3 (workingMinimum t), if max new3 (workingMinimum t) = workingMinimum t then true else b, ?_,
      .inr (le_max_right _ _), g5, max_le_max g4 (le_refl _)⟩
    rw [if_neg (fun hh => absurd hh.2 (not_lt.2 g5))]
    simp [g5]; rfl

theorem stepSize_nonneg {maxStep hmax attempt : R} (h1 : 0 ≤ maxStep) (h2 : 0 ≤ hmax) (h3 : 0 ≤ attempt) :
    0 ≤ stepSize maxStep hmax attempt := by
  unfold stepSize
  refine le_min ?_ h1
  split
  · exact h2
  · split
    · exact h2
    · exact h3

theorem stepSize_le {maxStep hmax attempt : R} (h2 : 0 ≤ hmax) (h3 : 0 ≤ attempt) :
    stepSize maxStep hmax attempt ≤ maxStep ∧ stepSize maxStep hmax attempt ≤ hmax ∧
      stepSize maxStep hmax attempt ≤ 1001 / 1000 * attempt := by
  refine ⟨min_le_right _ _, (min_le_left _ _).trans ?_, (min_le_left _ _).trans ?_⟩
  · split
    · exact le_refl _
    · split
      · exact le_refl _
      · linarith
  · unfold limited
    split
    · rename_i h; simp only [decide_eq_true_eq] at h; linarith
    · split
      · rename_i h; exact h.le
      · linarith

theorem stepSize_ge {maxStep hmax attempt : R} (h3 : 0 ≤ attempt) :
    min (min hmax (95 / 100 * attempt)) maxStep ≤ stepSize maxStep hmax attempt ∧
    (limited hmax attempt = true → hmax ≤ maxStep → stepSize maxStep hmax attempt = hmax) ∧
    (limited hmax attempt = false → min (95 / 100 * attempt) maxStep ≤ stepSize maxStep hmax attempt) := by
  refine ⟨?_, fun h h' => ?_, fun h => ?_⟩
  · unfold stepSize
    refine min_le_min ?_ (le_refl _)
    split
    · exact min_le_left _ _
    · split
      · exact min_le_left _ _
      · exact (min_le_right _ _).trans (by linarith)
  · unfold stepSize
    rw [h, if_pos rfl, min_eq_left h']
  · unfold stepSize
    rw [h, if_neg (by simp)]
    simp only [limited, decide_eq_false_iff_not, not_lt] at h
    refine min_le_min ?_ (le_refl _)
    split
    · exact h
    · linarith

/-- The smallest ideal step size. -/
def least (c : Setup R κ) : R := min (95 / 100 * tol) c.maxStep

/-- A step size that may be taken although its error is too large. -/
def tiny (c : Setup R κ) (t : R) : R := 1001 / 1000 * tol * max 1 (|t| + c.maxStep)

theorem workingMinimum_after {c : Setup R κ} {t h : R} (h0 : 0 ≤ h) (h1 : h ≤ c.maxStep) :
    workingMinimum (t + h) ≤ tol * max 1 (|t| + c.maxStep) := by
  apply workingMinimum_le
  calc |t + h| ≤ |t| + |h| := abs_add_le _ _
    _ ≤ _ := by rw [abs_of_nonneg h0]; linarith

theorem attempts_spec (c : Setup R κ) (hroot : RootOk c.root) (hmax : R) (h0 : 0 ≤ hmax) (hms : 0 ≤ c.maxStep) :
    ∀ (n : Nat) (s : State R κ) (attempt : R) (atMin : Bool), 0 ≤ s.accuracy → 0 ≤ attempt →
    (atMin = true → tol ≤ attempt ∧ attempt ≤ tol * max 1 (|s.time| + c.maxStep)) →
    ∃ h, 0 ≤ h ∧ h ≤ c.maxStep ∧ h ≤ hmax ∧ Frame s (attempts c hmax n s attempt atMin).1 ∧
      (attempts c hmax n s attempt atMin).1.time = s.time + h ∧
      (attempts c hmax n s attempt atMin).1.state = kutta (c.rhs s.k) s.time s.state h ∧
      ((attempts c hmax n s attempt atMin).1.ideal = s.ideal ∨
        ∃ i, (attempts c hmax n s attempt atMin).1.ideal = some i ∧ least c ≤ i ∧
          i ≤ max c.maxStep (tol * max 1 (|s.time| + c.maxStep))) ∧
      ∀ full, (attempts c hmax n s attempt atMin).2 = .ok full → full = decide (h = hmax) ∧
        (errorEstimate (c.rhs s.k) s.time s.state h ≤ s.accuracy ∨ h ≤ tiny c s.time) ∧
        min (min hmax c.maxStep) (min (95 / 100 * attempt) (95 / 100 * tol)) ≤ h ∧
        (hmax ≤ c.maxStep → h = hmax ∨ ∃ i, (attempts c hmax n s attempt atMin).1.ideal = some i)
  | 0, s, attempt, atMin, ha, hat, hmin =>
    ⟨0, le_refl _, hms, h0, Frame.refl _, by simp [attempts], by simp [attempts, kutta_zero], .inl rfl, fun full h => by
      simp [attempts] at h⟩
  | n + 1, s, attempt, atMin, ha, hat, hmin => by
    have hh0 := stepSize_nonneg hms h0 hat
    obtain ⟨hh1, hh2, hh3⟩ := stepSize_le (maxStep := c.maxStep) h0 hat
    obtain ⟨g1, g2, g3⟩ := stepSize_ge (maxStep := c.maxStep) (hmax := hmax) hat
    have hlow : min (min hmax c.maxStep) (min (95 / 100 * attempt) (95 / 100 * tol)) ≤ stepSize c.maxStep hmax attempt :=
      le_trans (le_min (le_min ((min_le_left _ _).trans (min_le_left _ _)) ((min_le_right _ _).trans (min_le_left _ _)))
        ((min_le_left _ _).trans (min_le_right _ _))) g1
    unfold attempts
    dsimp only
    generalize stepSize c.maxStep hmax attempt = h at hh0 hh1 hh2 hh3 g1 g2 g3 hlow ⊢
    obtain ⟨s1, s2, s3, s4, s5, -⟩ := step_spec c s h
    generalize step c.f s h = r at s1 s2 s3 s4 s5 ⊢
    obtain ⟨s', r⟩ := r
    dsimp only at s1 s2 s3 s4 s5 ⊢
    cases r with
    | error e =>
      dsimp only
      exact ⟨h, hh0, hh1, hh2, s1, s3, s4, .inl s2, fun _ hf => by cases hf⟩
    | ok err =>
      have herr := s5 err rfl
      dsimp only
      have hcalc : calcAdjusted c.root s'.accuracy c.maxStep s'.time err h atMin =
          calcAdjusted c.root s.accuracy c.maxStep (s.time + h) err h atMin := by rw [s1.accuracy, s3]
      rw [hcalc]
      have hw := workingMinimum_after (c := c) (t := s.time) hh0 hh1
      by_cases hsmall : err ≤ s.accuracy
      · obtain ⟨next, b, e1, e2, e3, e4⟩ :=
          calcAdjusted_small (root := c.root) (t := s.time + h) atMin hh0 hh1 hsmall
        rw [e1]
        dsimp only
        refine ⟨h, hh0, hh1, hh2, ⟨s1.k, s1.current, s1.initialized, s1.accuracy⟩, s3, s4, ?_, fun full hf => ?_⟩
        · cases hlim : limited hmax attempt
          · right
            refine ⟨next, rfl, ?_, e4.trans (max_le_max (le_refl _) hw)⟩
            rcases e2 with ⟨e2, e2'⟩ | e2
            · refine le_trans ?_ ((g3 hlim).trans e3)
              exact min_le_min (by have := (hmin e2').1; linarith) (le_refl _)
            · refine (min_le_left _ _).trans (le_trans ?_ e2)
              have := tol_le_workingMinimum (s.time + h)
              have := tol_pos (R := R)
              linarith
          · left; exact s2
        · refine ⟨(Except.ok.inj hf).symm, .inl (herr ▸ hsmall), hlow, fun hle => ?_⟩
          cases hlim : limited hmax attempt
          · right; exact ⟨next, rfl⟩
          · left; exact g2 hlim hle
      · have hbig := not_le.1 hsmall
        have hpos : 0 < h := by
          rcases hh0.eq_or_lt with hz | hz
          · exfalso
            rw [herr, ← hz, errorEstimate_zero] at hbig
            linarith
          · exact hz
        obtain ⟨l1, l2⟩ := calcAdjusted_large hroot (t := s.time + h) (atMin := atMin) ha hh0 hh1 hbig hpos
        cases hb : atMin
        · rw [hb] at l2
          rcases l2 rfl with ⟨l2, -⟩ | ⟨next, l2, l3, l4⟩
          · rw [l2]
            dsimp only
            exact ⟨h, hh0, hh1, hh2, s1, s3, s4, .inl s2, fun _ hf => by cases hf⟩
          · rw [l2]
            dsimp only
            cases hd : dropSegment s'.dense with
            | error e =>
              dsimp only
              exact ⟨0, le_refl _, hms, h0, ⟨s1.k, s1.current, s1.initialized, s1.accuracy⟩, by simp, by simp [kutta_zero],
                .inl s2, fun _ hf => by cases hf⟩
            | ok d =>
              dsimp only
              have hnp : tol ≤ next := (tol_le_workingMinimum _).trans l4
              obtain ⟨h', k1, k2, k3, k4, k5, k6, k7, k8⟩ := attempts_spec c hroot hmax h0 hms n
                { s' with time := s.time, state := s.state, dense := d } next (decide (next = workingMinimum (s.time + h)))
                (by dsimp only; rw [s1.accuracy]; exact ha) (tol_pos.le.trans hnp) (fun hmm => by
                  simp only [decide_eq_true_eq] at hmm
                  exact ⟨hnp, by rw [hmm]; exact hw⟩)
              dsimp only at k5 k6 k7 k8
              have ek : c.rhs s'.k = c.rhs s.k := by rw [s1.k]
              rw [ek] at k6 k8
              refine ⟨h', k1, k2, k3, ⟨k4.k.trans s1.k, k4.current.trans s1.current, k4.initialized.trans s1.initialized,
                k4.accuracy.trans s1.accuracy⟩, k5, k6, k7.imp (·.trans s2) id, fun full hf => ?_⟩
              obtain ⟨m1, m2, m3, m4⟩ := k8 full hf
              refine ⟨m1, m2.imp (fun h => h.trans_eq s1.accuracy) id, le_trans (le_min (min_le_left _ _) (le_min ?_ ?_)) m3, m4⟩
              · exact ((min_le_right _ _).trans (min_le_right _ _)).trans (by linarith)
              · exact (min_le_right _ _).trans (min_le_right _ _)
        · rw [hb] at l1
          rw [l1 rfl]
          dsimp only
          refine ⟨h, hh0, hh1, hh2, ⟨s1.k, s1.current, s1.initialized, s1.accuracy⟩, s3, s4, ?_, fun full hf => ?_⟩
          · cases hlim : limited hmax attempt
            · right
              refine ⟨h, rfl, ?_, le_max_of_le_left hh1⟩
              refine le_trans ?_ (g3 hlim)
              exact min_le_min (by have := (hmin hb).1; linarith) (le_refl _)
            · left; exact s2
          · refine ⟨(Except.ok.inj hf).symm, .inr ?_, hlow, fun hle => ?_⟩
            · refine hh3.trans ?_
              unfold tiny
              have := (hmin hb).2
              rw [mul_assoc]
              linarith
            · cases hlim : limited hmax attempt
              · right; exact ⟨h, rfl⟩
              · left; exact g2 hlim hle

end Maliput.Ode
