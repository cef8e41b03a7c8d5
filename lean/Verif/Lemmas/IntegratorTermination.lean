import Verif.Lemmas.IntegratorRuns

set_option autoImplicit false
set_option linter.unusedSectionVars false

/-! Lemmas for the integrators: they come to an end, and when they throw. -/
namespace Maliput.Ode

open Maliput Piecewise Spec
open Maliput.RouteGraph (Stop)

variable {R κ : Type} [Field R] [LinearOrder R] [IsStrictOrderedRing R] [DecidableEq κ]
variable {c : Setup R κ} {s s' : State R κ}

theorem attempts_returns (c : Setup R κ) (hroot : RootOk c.root) (hmax : R) (h0 : 0 ≤ hmax) (hms : 0 ≤ c.maxStep) :
    ∀ (n : Nat) (s : State R κ) (attempt : R) (atMin : Bool), 0 ≤ s.accuracy → 0 ≤ attempt →
    attempt * (91 / 100) ^ n < tol → (attempts c hmax (n + 1) s attempt atMin).2 ≠ .error .depth
  | n, s, attempt, atMin, ha, hat, hn => by
    have hh0 := stepSize_nonneg hms h0 hat
    obtain ⟨hh1, hh2, hh3⟩ := stepSize_le (maxStep := c.maxStep) h0 hat
    unfold attempts
    dsimp only
    generalize stepSize c.maxStep hmax attempt = h at hh0 hh1 hh2 hh3 ⊢
    obtain ⟨s1, s2, s3, s4, s5, -⟩ := step_spec c s h
    generalize step c.f s h = r at s1 s2 s3 s4 s5 ⊢
    obtain ⟨s', r⟩ := r
    dsimp only at s1 s2 s3 s4 s5 ⊢
    cases r with
    | error e => simp
    | ok err =>
      have herr := s5 err rfl
      dsimp only
      have ha' : 0 ≤ s'.accuracy := by rw [s1.accuracy]; exact ha
      by_cases hsmall : err ≤ s'.accuracy
      · obtain ⟨next, b, e1, -⟩ := calcAdjusted_small (root := c.root) (t := s'.time) atMin hh0 hh1 hsmall
        rw [e1]; simp
      · have hbig := not_le.1 hsmall
        have hpos : 0 < h := by
          rcases hh0.eq_or_lt with hz | hz
          · exfalso
            rw [herr, ← hz, errorEstimate_zero] at hbig
            linarith
          · exact hz
        obtain ⟨l1, l2⟩ := calcAdjusted_large hroot (t := s'.time) (atMin := atMin) ha' hh0 hh1 hbig hpos
        cases hb : atMin
        · rw [hb] at l2
          rcases l2 rfl with ⟨l2, -⟩ | ⟨next, l2, l3, l4⟩
          · rw [l2]; simp
          · rw [l2]
            dsimp only
            cases hd : dropSegment s'.dense with
            | error e => simp
            | ok d =>
              dsimp only
              have hnp : tol ≤ next := (tol_le_workingMinimum _).trans l4
              have hna : next ≤ 91 / 100 * attempt := by linarith
              match n with
              | 0 => exfalso; simp at hn; linarith
              | n + 1 =>
                refine attempts_returns c hroot hmax h0 hms n _ next _ ?_ (tol_pos.le.trans hnp) (lt_of_le_of_lt ?_ hn)
                · exact ha'
                · calc next * (91 / 100) ^ n ≤ 91 / 100 * attempt * (91 / 100) ^ n :=
                        mul_le_mul_of_nonneg_right hna (by positivity)
                    _ = attempt * (91 / 100) ^ (n + 1) := by ring
        · rw [hb] at l1
          rw [l1 rfl]; simp

theorem integrateNoFurther_returns (hu : Usable c) (n : Nat) (s : State R κ) (hi : Inv c s) (hin : s.initialized = true)
    (boundary : R) (hb : s.time ≤ boundary) (hn : s.ideal.getD c.initialStep * (91 / 100) ^ n < tol) :
    (integrateNoFurther c (n + 1) s boundary).2 ≠ .error .depth := by
  have hms := hi.maxStep_nonneg hin
  unfold integrateNoFurther stepOnce
  rw [if_neg (by rw [hin]; simp), if_neg (by linarith)]
  dsimp only
  generalize (if s.time + c.maxStep < boundary then s.time + c.maxStep else boundary) = target
  split
  · simp
  · rename_i h
    have := attempts_returns c hu.root _ (not_lt.1 h) hms n s (s.ideal.getD c.initialStep) false
      (hi.accuracy_nonneg hu hin) (hi.attempt_nonneg hin) hn
    generalize attempts c _ (n + 1) s (s.ideal.getD c.initialStep) false = r at this ⊢
    obtain ⟨s', r⟩ := r
    cases r with
    | error e => simpa using this
    | ok full => simp

/-- A lower bound for the progress of a step that does not reach the end. -/
def progress (c : Setup R κ) : R := 95 / 100 * least c

theorem progress_pos (h : 0 < c.maxStep) : 0 < progress c :=
  mul_pos (by norm_num) (lt_min (mul_pos (by norm_num) tol_pos) h)

/-- An upper bound for step sizes at times within a bound. -/
def largest (c : Setup R κ) (T : R) : R := max c.maxStep (tol * max 1 (T + c.maxStep))

theorem abs_le_of_between {a b t : R} (h1 : a ≤ t) (h2 : t ≤ b) : |t| ≤ max |a| |b| := by
  rw [abs_le]
  constructor
  · have := neg_abs_le a; have := le_max_left |a| |b|; linarith
  · have := le_abs_self b; have := le_max_right |a| |b|; linarith

theorem integrateTo_returns (hu : Usable c) (hpos : 0 < c.maxStep) (n : Nat) (tf T : R) (B : R)
    (hB : largest c T ≤ B) (hn : B * (91 / 100) ^ n < tol) (hT : |tf| ≤ T) :
    ∀ (m : Nat) (s : State R κ), Inv c s → s.initialized = true → s.time ≤ tf → |s.time| ≤ T →
    (s.ideal.getD c.initialStep ≤ B) → (∃ i, s.ideal = some i) → tf - s.time < m * progress c →
    (integrateTo c (n + 1) tf (m + 1) s).2 ≠ .error .depth
  | m, s, hi, hin, hle, hsT, hB', hsome, hm => by
    have hp := progress_pos hpos
    obtain ⟨h, hmv, hok⟩ := integrateTo_step hu (n + 1) tf s hi hin hle
    have hms := hi.maxStep_nonneg hin
    have hb : s.time ≤ min tf (s.time + c.maxStep) := le_min hle (by linarith)
    have hret := integrateNoFurther_returns hu n s hi hin _ hb
      (lt_of_le_of_lt (mul_le_mul_of_nonneg_right hB' (by positivity)) hn)
    unfold integrateTo
    generalize integrateNoFurther c (n + 1) s (min tf (s.time + c.maxStep)) = r at hmv hok hret ⊢
    obtain ⟨s', r⟩ := r
    cases r with
    | error e => exact hret
    | ok u =>
      dsimp only at hmv hok ⊢
      split
      · rename_i hlt
        obtain ⟨-, o2, o3⟩ := hok rfl
        have hi' := hi.moved hmv
        obtain ⟨i, hsi⟩ := hsome
        have hadv : progress c ≤ h := by
          have hleast := hi.ideal i hsi
          rw [hsi] at o2
          have hne : h < tf - s.time := by rw [hmv.time] at hlt; linarith
          have hl0 : least c ≤ 95 / 100 * tol := min_le_left _ _
          have hl1 : least c ≤ c.maxStep := min_le_right _ _
          have hln := least_nonneg (c := c) hms
          have ht := tol_pos (R := R)
          unfold progress
          rcases min_le_iff.1 o2 with h1 | h1
          · rcases min_le_iff.1 h1 with h1 | h1 <;> linarith
          · simp only [Option.getD_some] at h1
            rcases min_le_iff.1 h1 with h1 | h1 <;> linarith
        have hlt' : tf - s'.time < ((m : R) - 1) * progress c := by rw [hmv.time]; linarith
        match m with
        | 0 =>
          exfalso
          simp only [Nat.cast_zero, zero_sub, neg_mul, one_mul] at hlt'
          linarith
        | m + 1 =>
          have hs'T : |s'.time| ≤ T := by
            refine (abs_le_of_between (a := s.time) (b := tf) ?_ hlt.le).trans (max_le hsT hT)
            rw [hmv.time]; have := hmv.nonneg; linarith
          refine integrateTo_returns hu hpos n tf T B hB hn hT m s' hi' (hmv.frame.initialized.trans hin) hlt.le hs'T ?_ ?_ ?_
          · rcases hmv.ideal with h1 | ⟨j, h1, h2, h3⟩
            · rw [h1]; exact hB'
            · rw [h1]
              exact h3.trans (le_trans (max_le_max (le_refl _) (mul_le_mul_of_nonneg_left (max_le_max (le_refl _)
                (by linarith)) tol_pos.le)) hB)
          · rcases hmv.ideal with h1 | ⟨j, h1, -⟩
            · exact ⟨i, h1.trans hsi⟩
            · exact ⟨j, h1⟩
          · push_cast at hlt'
            rwa [add_sub_cancel_right] at hlt'
      · simp

theorem integrateTo_returns' (hu : Usable c) (hpos : 0 < c.maxStep) (n : Nat) (tf T : R) (B : R)
    (hB : largest c T ≤ B) (hn : B * (91 / 100) ^ n < tol) (hT : |tf| ≤ T) (m : Nat) (s : State R κ) (hi : Inv c s)
    (hin : s.initialized = true) (hle : s.time ≤ tf) (hsT : |s.time| ≤ T) (hB' : s.ideal.getD c.initialStep ≤ B)
    (hm : tf - s.time < m * progress c) : (integrateTo c (n + 1) tf (m + 2) s).2 ≠ .error .depth := by
  have hp := progress_pos hpos
  obtain ⟨h, hmv, hok⟩ := integrateTo_step hu (n + 1) tf s hi hin hle
  have hms := hi.maxStep_nonneg hin
  have hb : s.time ≤ min tf (s.time + c.maxStep) := le_min hle (by linarith)
  have hret := integrateNoFurther_returns hu n s hi hin _ hb
    (lt_of_le_of_lt (mul_le_mul_of_nonneg_right hB' (by positivity)) hn)
  unfold integrateTo
  generalize integrateNoFurther c (n + 1) s (min tf (s.time + c.maxStep)) = r at hmv hok hret ⊢
  obtain ⟨s', r⟩ := r
  cases r with
  | error e => exact hret
  | ok u =>
    dsimp only at hmv hok ⊢
    split
    · rename_i hlt
      obtain ⟨-, o2, o3⟩ := hok rfl
      have hi' := hi.moved hmv
      have hge : s.time ≤ s'.time := by rw [hmv.time]; have := hmv.nonneg; linarith
      have hs'T : |s'.time| ≤ T := (abs_le_of_between hge hlt.le).trans (max_le hsT hT)
      have hB'' : s'.ideal.getD c.initialStep ≤ B := by
        rcases hmv.ideal with h1 | ⟨j, h1, h2, h3⟩
        · rw [h1]; exact hB'
        · rw [h1]
          exact h3.trans (le_trans (max_le_max (le_refl _) (mul_le_mul_of_nonneg_left (max_le_max (le_refl _)
            (by linarith)) tol_pos.le)) hB)
      rcases hd : s'.ideal with _ | i
      · -- no step size yet: the step was a full one, so one of the largest size
        have hfull : h = min c.maxStep (tf - s.time) := o3.resolve_right (by rintro ⟨i, hi⟩; rw [hd] at hi; cases hi)
        have hne : h < tf - s.time := by rw [hmv.time] at hlt; linarith
        have hmax : h = c.maxStep := by
          rcases min_choice c.maxStep (tf - s.time) with h1 | h1
          · rw [hfull, h1]
          · rw [h1] at hfull; linarith
        have hpm : progress c ≤ c.maxStep := by
          unfold progress
          have : least c ≤ c.maxStep := min_le_right _ _
          have := least_nonneg (c := c) hms
          linarith
        match m with
        | 0 => exfalso; simp at hm; linarith
        | m + 1 =>
          refine integrateTo_returns' hu hpos n tf T B hB hn hT m s' hi' (hmv.frame.initialized.trans hin) hlt.le hs'T hB'' ?_
          push_cast at hm
          rw [hmv.time]; linarith
      · exact integrateTo_returns hu hpos n tf T B hB hn hT m s' hi' (hmv.frame.initialized.trans hin) hlt.le hs'T hB''
          ⟨i, hd⟩ (by linarith)
    · simp

/-- Bounds for the numbers of attempts and steps that suffice. -/
theorem bounds_exist [Archimedean R] (hpos : 0 < c.maxStep) (B d : R) :
    ∃ n m : Nat, B * (91 / 100) ^ n < tol ∧ d < m * progress c := by
  obtain ⟨m, hm⟩ := exists_nat_gt (d / progress c)
  have hm : d < m * progress c := (div_lt_iff₀ (progress_pos hpos)).1 hm
  rcases le_or_gt B 0 with hB | hB
  · exact ⟨0, m, by simpa using hB.trans_lt tol_pos, hm⟩
  · obtain ⟨n, hn⟩ := exists_pow_lt_of_lt_one (div_pos tol_pos hB) (show (91 / 100 : R) < 1 by norm_num)
    refine ⟨n, m, ?_, hm⟩
    rw [mul_comm]
    exact (lt_div_iff₀ hB).1 hn

theorem attempts_mono (c : Setup R κ) (hmax : R) : ∀ (n n' : Nat) (s : State R κ) (attempt : R) (atMin : Bool), n ≤ n' →
    (attempts c hmax n s attempt atMin).2 ≠ .error .depth →
    attempts c hmax n' s attempt atMin = attempts c hmax n s attempt atMin
  | 0, _, _, _, _, _, h => absurd rfl h
  | n + 1, 0, _, _, _, hn, _ => by omega
  | n + 1, n' + 1, s, attempt, atMin, hn, h => by
    unfold attempts at h ⊢
    dsimp only at h ⊢
    generalize step c.f s (stepSize c.maxStep hmax attempt) = r at h ⊢
    obtain ⟨s', r⟩ := r
    cases r with
    | error e => rfl
    | ok err =>
      dsimp only at h ⊢
      generalize calcAdjusted c.root s'.accuracy c.maxStep s'.time err (stepSize c.maxStep hmax attempt) atMin = q at h ⊢
      match q with
      | .error e => rfl
      | .ok (true, next, _) => rfl
      | .ok (false, next, atMin') =>
        dsimp only at h ⊢
        generalize dropSegment s'.dense = d at h ⊢
        cases d with
        | error e => rfl
        | ok d => exact attempts_mono c hmax n n' _ next atMin' (by omega) h

theorem integrateNoFurther_mono (c : Setup R κ) (n n' : Nat) (s : State R κ) (boundary : R) (hn : n ≤ n')
    (h : (integrateNoFurther c n s boundary).2 ≠ .error .depth) :
    integrateNoFurther c n' s boundary = integrateNoFurther c n s boundary := by
  unfold integrateNoFurther stepOnce at h ⊢
  split
  · rfl
  · rename_i h1
    rw [if_neg h1] at h
    split
    · rfl
    · rename_i h2
      rw [if_neg h2] at h
      dsimp only at h ⊢
      generalize (if s.time + c.maxStep < boundary then s.time + c.maxStep else boundary) = target at h ⊢
      split
      · rfl
      · rename_i h3
        rw [if_neg h3] at h
        rw [attempts_mono c _ n n' _ _ _ hn]
        intro hd
        generalize attempts c (target - s.time) n s (s.ideal.getD c.initialStep) false = r at h hd
        obtain ⟨s', r⟩ := r
        dsimp only at hd
        subst hd
        exact h rfl

theorem integrateTo_mono (c : Setup R κ) (n n' : Nat) (hn : n ≤ n') (tf : R) : ∀ (m m' : Nat) (s : State R κ), m ≤ m' →
    (integrateTo c n tf m s).2 ≠ .error .depth → integrateTo c n' tf m' s = integrateTo c n tf m s
  | 0, _, _, _, h => absurd rfl h
  | m + 1, 0, _, hm, _ => by omega
  | m + 1, m' + 1, s, hm, h => by
    unfold integrateTo at h ⊢
    rw [integrateNoFurther_mono c n n' s _ hn (by
      intro hd
      generalize integrateNoFurther c n s (min tf (s.time + c.maxStep)) = r at h hd
      obtain ⟨s', r⟩ := r
      dsimp only at hd
      subst hd
      exact h rfl)]
    generalize integrateNoFurther c n s (min tf (s.time + c.maxStep)) = r at h ⊢
    obtain ⟨s', r⟩ := r
    cases r with
    | error e => rfl
    | ok u =>
      dsimp only at h ⊢
      split
      · rename_i hlt
        rw [if_pos hlt] at h
        exact integrateTo_mono c n n' hn tf m m' s' (by omega) h
      · rfl

/-- No step of a size near the smallest one has too large an error. -/
def Tame (c : Setup R κ) (k : κ) (a b : R) : Prop :=
  ∀ t x h, a ≤ t → t + h ≤ b → 0 < h → h < 10 * workingMinimum (t + h) →
    errorEstimate (c.rhs k) t x h ≤ min c.accuracy (1 / 10)

theorem attempts_no_throw (c : Setup R κ) (hroot : RootOk c.root) (hmax : R) (h0 : 0 ≤ hmax) (hms : 0 ≤ c.maxStep)
    (a b : R) : ∀ (n : Nat) (s : State R κ) (attempt : R) (atMin : Bool), 0 ≤ s.accuracy → s.accuracy = min c.accuracy (1 / 10) →
    0 ≤ attempt → s.dense = none → Tame c s.k a b → a ≤ s.time → s.time + hmax ≤ b →
    (attempts c hmax n s attempt atMin).1.dense = none ∧
      ∀ e, (attempts c hmax n s attempt atMin).2 ≠ .error (.err e)
  | 0, s, attempt, atMin, ha, hacc, hat, hd, htame, hsa, hsb => ⟨hd, by simp [attempts]⟩
  | n + 1, s, attempt, atMin, ha, hacc, hat, hd, htame, hsa, hsb => by
    have hh0 := stepSize_nonneg hms h0 hat
    obtain ⟨hh1, hh2, hh3⟩ := stepSize_le (maxStep := c.maxStep) h0 hat
    unfold attempts
    dsimp only
    generalize stepSize c.maxStep hmax attempt = h at hh0 hh1 hh2 hh3 ⊢
    obtain ⟨s1, s2, s3, s4, -, s6⟩ := step_spec c s h
    obtain ⟨s7, s8⟩ := s6 hd
    generalize step c.f s h = r at s1 s2 s3 s4 s7 s8 ⊢
    obtain ⟨s', r⟩ := r
    dsimp only at s1 s2 s3 s4 s7 s8 ⊢
    subst s8
    dsimp only
    have ha' : 0 ≤ s'.accuracy := by rw [s1.accuracy]; exact ha
    by_cases hsmall : errorEstimate (c.rhs s.k) s.time s.state h ≤ s'.accuracy
    · obtain ⟨next, b, e1, -⟩ := calcAdjusted_small (root := c.root) (t := s'.time) atMin hh0 hh1 hsmall
      rw [e1]; exact ⟨s7, by simp⟩
    · have hbig := not_le.1 hsmall
      have hpos : 0 < h := by
        rcases hh0.eq_or_lt with hz | hz
        · exfalso
          rw [← hz, errorEstimate_zero] at hbig
          linarith
        · exact hz
      obtain ⟨l1, l2⟩ := calcAdjusted_large hroot (t := s'.time) (atMin := atMin) ha' hh0 hh1 hbig hpos
      cases hb : atMin
      · rw [hb] at l2
        rcases l2 rfl with ⟨-, l2⟩ | ⟨next, l2, l3, l4⟩
        · exfalso
          rw [s1.accuracy, hacc] at hsmall
          rw [s3] at l2
          exact hsmall (htame s.time s.state h hsa (by linarith) hpos l2)
        · rw [l2]
          dsimp only
          rw [s7]
          show (attempts c hmax n { s' with time := s.time, state := s.state, dense := none } next _).1.dense = none ∧ _
          exact attempts_no_throw c hroot hmax h0 hms a b n _ next _ ha' (s1.accuracy.trans hacc)
            ((tol_pos.le.trans (tol_le_workingMinimum _)).trans l4) rfl (by dsimp only; rw [s1.k]; exact htame) hsa hsb
      · rw [hb] at l1
        rw [l1 rfl]; exact ⟨s7, by simp⟩

theorem integrateNoFurther_no_throw (hu : Usable c) (n : Nat) (s : State R κ) (hi : Inv c s) (hin : s.initialized = true)
    (boundary : R) (hb : s.time ≤ boundary) (a b : R) (hd : s.dense = none) (ht : Tame c s.k a b) (hsa : a ≤ s.time)
    (hsb : boundary ≤ b) : (integrateNoFurther c n s boundary).1.dense = none ∧
      ∀ e, (integrateNoFurther c n s boundary).2 ≠ .error (.err e) := by
  have hms := hi.maxStep_nonneg hin
  unfold integrateNoFurther stepOnce
  rw [if_neg (by rw [hin]; simp), if_neg (by linarith)]
  dsimp only
  have htb : (if s.time + c.maxStep < boundary then s.time + c.maxStep else boundary) ≤ b := by
    split <;> linarith
  have htt : s.time ≤ (if s.time + c.maxStep < boundary then s.time + c.maxStep else boundary) := by
    split <;> linarith
  generalize (if s.time + c.maxStep < boundary then s.time + c.maxStep else boundary) = target at htb htt ⊢
  rw [if_neg (by linarith)]
  obtain ⟨q1, q2⟩ := attempts_no_throw c hu.root (target - s.time) (by linarith) hms a b n s (s.ideal.getD c.initialStep) false
    (hi.accuracy_nonneg hu hin) (hi.init hin).1 (hi.attempt_nonneg hin) hd ht hsa (by linarith)
  generalize attempts c (target - s.time) n s (s.ideal.getD c.initialStep) false = r at q1 q2 ⊢
  obtain ⟨s', r⟩ := r
  dsimp only at q1 q2
  cases r with
  | error e =>
    refine ⟨q1, fun e' h => q2 e' ?_⟩
    have : e = .err e' := by simpa using h
    rw [this]
  | ok full =>
    refine ⟨?_, by simp⟩
    dsimp only
    split <;> exact q1

theorem integrateTo_no_throw (hu : Usable c) (n : Nat) (tf a : R) : ∀ (m : Nat) (s : State R κ), Inv c s →
    s.initialized = true → s.time ≤ tf → s.dense = none → Tame c s.k a tf → a ≤ s.time →
    (integrateTo c n tf m s).1.dense = none ∧ ∀ e, (integrateTo c n tf m s).2 ≠ .error (.err e)
  | 0, s, hi, hin, hle, hd, ht, ha => ⟨hd, by simp [integrateTo]⟩
  | m + 1, s, hi, hin, hle, hd, ht, ha => by
    have hms := hi.maxStep_nonneg hin
    obtain ⟨h, hm, hok⟩ := integrateTo_step hu n tf s hi hin hle
    obtain ⟨q1, q2⟩ := integrateNoFurther_no_throw hu n s hi hin (min tf (s.time + c.maxStep)) (le_min hle (by linarith)) a tf
      hd ht ha (min_le_left _ _)
    unfold integrateTo
    generalize integrateNoFurther c n s (min tf (s.time + c.maxStep)) = r at hm hok q1 q2 ⊢
    obtain ⟨s', r⟩ := r
    dsimp only at hm hok q1 q2
    cases r with
    | error e => exact ⟨q1, q2⟩
    | ok u =>
      dsimp only
      split
      · rename_i hlt
        exact integrateTo_no_throw hu n tf a m s' (hi.moved hm) (hm.frame.initialized.trans hin) hlt.le q1
          (by rw [hm.frame.k]; exact ht) (by rw [hm.time]; have := hm.nonneg; linarith)
      · exact ⟨q1, by simp⟩

end Maliput.Ode
