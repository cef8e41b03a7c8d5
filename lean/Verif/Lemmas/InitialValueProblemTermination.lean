import Verif.Lemmas.InitialValueProblemErrors

set_option autoImplicit false
set_option linter.unusedSectionVars false

/-! Lemmas for initial value problems: they come to an end, and when they do not throw. -/
namespace Maliput.Ivp

open Maliput Piecewise Spec
open Maliput.RouteGraph (Stop)
open Maliput.Ode (calcAdjusted limited stepSize tol tol_pos workingMinimum tol_le_workingMinimum RootOk calcAdjusted_large calcAdjusted_small
  stepSize_nonneg stepSize_le stepSize_ge)

variable {R : Type} [Field R] [LinearOrder R] [IsStrictOrderedRing R] {c : Setup R} {s s' : State R}

/-- How far a call of the integrator gets in one step. -/
structure Progress (c : Setup R) (s s' : State R) (hmax attempt h : R) : Prop where
  nonneg : 0 ≤ h
  le : h ≤ hmax
  time : s'.time = s.time + h
  low : min (min hmax c.maxStep) (min (95 / 100 * attempt) (95 / 100 * tol)) ≤ h
  full : hmax ≤ c.maxStep → h = hmax ∨ ∃ i, s'.ideal = some i
  ideal : s'.ideal = s.ideal ∨ ∃ i, s'.ideal = some i ∧ i ≤ max c.maxStep (tol * max 1 (|s.time| + c.maxStep))

theorem attempts_progress (c : Setup R) (hroot : RootOk c.root) (hmax : R) (h0 : 0 ≤ hmax) (hms : 0 ≤ c.maxStep) :
    ∀ (n : Nat) (s : State R) (attempt : R) (atMin : Bool), 0 ≤ s.accuracy → 0 ≤ attempt →
    ∀ full, (attempts c hmax n s attempt atMin).2 = .ok full → ∃ h, Progress c s (attempts c hmax n s attempt atMin).1 hmax attempt h
  | 0, s, attempt, atMin, ha, hat => nofun
  | n + 1, s, attempt, atMin, ha, hat => by
    have hh0 := stepSize_nonneg hms h0 hat
    obtain ⟨hh1, hh2, hh3⟩ := stepSize_le (maxStep := c.maxStep) h0 hat
    obtain ⟨g1, g2, g3⟩ := stepSize_ge (maxStep := c.maxStep) (hmax := hmax) hat
    have hlow : min (min hmax c.maxStep) (min (95 / 100 * attempt) (95 / 100 * tol)) ≤ stepSize c.maxStep hmax attempt :=
      le_trans (le_min (le_min ((min_le_left _ _).trans (min_le_left _ _)) ((min_le_right _ _).trans (min_le_left _ _)))
        ((min_le_left _ _).trans (min_le_right _ _))) g1
    unfold attempts
    dsimp only
    generalize stepSize c.maxStep hmax attempt = h at hh0 hh1 hh2 hh3 g1 g2 g3 hlow ⊢
    obtain ⟨s1, s2, s3⟩ := step_spec c s h
    generalize step c.f s h = r at s1 s2 s3 ⊢
    obtain ⟨s', r⟩ := r
    dsimp only at s1 s2 s3 ⊢
    rcases s3 with ⟨⟨e, rfl⟩, -⟩ | ⟨k1, k2, k3, err, rfl, w, hn, -⟩
    · exact nofun
    · dsimp only
      have hcalc : calcAdjusted c.root s'.accuracy c.maxStep s'.time (norm err) h atMin =
          calcAdjusted c.root s.accuracy c.maxStep (s.time + h) (norm err) h atMin := by rw [s1.accuracy, w.time]
      rw [hcalc]
      have hw := workingMinimum_after (c := c) (t := s.time) hh0 hh1
      have done : ∀ next, next ≤ max c.maxStep (workingMinimum (s.time + h)) →
          Progress c s { s' with ideal := if limited hmax attempt = true then s'.ideal else some next } hmax attempt h := by
        intro next e4
        refine ⟨hh0, hh2, w.time, hlow, fun hle => ?_, ?_⟩
        · cases hlim : limited hmax attempt
          · right; exact ⟨next, rfl⟩
          · left; exact g2 hlim hle
        · cases hlim : limited hmax attempt
          · right; exact ⟨next, rfl, e4.trans (max_le_max (le_refl _) hw)⟩
          · left; exact s2
      by_cases hsmall : norm err ≤ s.accuracy
      · obtain ⟨next, b, e1, -, -, e4⟩ := calcAdjusted_small (root := c.root) (t := s.time + h) atMin hh0 hh1 hsmall
        rw [e1]
        exact fun _ _ => ⟨h, done next e4⟩
      · have hbig := not_le.1 hsmall
        have hpos : 0 < h := by
          rcases hh0.eq_or_lt with hz | hz
          · exact absurd ((hn _ ha).2 (hz ▸ within_zero _ _ _ _ ha)) hsmall
          · exact hz
        obtain ⟨l1, l2⟩ := calcAdjusted_large hroot (t := s.time + h) (atMin := atMin) ha hh0 hh1 hbig hpos
        cases hb : atMin
        · rw [hb] at l2
          rcases l2 rfl with ⟨l2, -⟩ | ⟨next, l2, l3, l4⟩
          · rw [l2]; exact nofun
          · rw [l2]
            dsimp only
            cases hd : dropSegment s'.dense with
            | error e => exact nofun
            | ok d =>
              intro full hf
              have hnp : tol ≤ next := (tol_le_workingMinimum _).trans l4
              obtain ⟨h', p⟩ := attempts_progress c hroot hmax h0 hms n
                { s' with time := s.time, state := s.state, dense := d } next _ (by dsimp only; rw [s1.accuracy]; exact ha)
                (tol_pos.le.trans hnp) full hf
              refine ⟨h', p.nonneg, p.le, p.time, ?_, p.full, p.ideal.imp (·.trans s2) id⟩
              refine le_trans (min_le_min (le_refl _) (le_min ?_ (min_le_right _ _))) p.low
              exact (min_le_right _ _).trans (by linarith)
        · rw [hb] at l1
          rw [l1 rfl]
          exact fun _ _ => ⟨h, done h (le_max_of_le_left hh1)⟩

theorem attempts_returns (c : Setup R) (hroot : RootOk c.root) (hmax : R) (h0 : 0 ≤ hmax) (hms : 0 ≤ c.maxStep) :
    ∀ (n : Nat) (s : State R) (attempt : R) (atMin : Bool), 0 ≤ s.accuracy → 0 ≤ attempt →
    attempt * (91 / 100) ^ n < tol → (attempts c hmax (n + 1) s attempt atMin).2 ≠ .error .depth
  | n, s, attempt, atMin, ha, hat, hn => by
    have hh0 := stepSize_nonneg hms h0 hat
    obtain ⟨hh1, hh2, hh3⟩ := stepSize_le (maxStep := c.maxStep) h0 hat
    unfold attempts
    dsimp only
    generalize stepSize c.maxStep hmax attempt = h at hh0 hh1 hh2 hh3 ⊢
    obtain ⟨s1, s2, s3⟩ := step_spec c s h
    generalize step c.f s h = r at s1 s2 s3 ⊢
    obtain ⟨s', r⟩ := r
    dsimp only at s1 s2 s3 ⊢
    rcases s3 with ⟨⟨e, rfl⟩, -⟩ | ⟨k1, k2, k3, err, rfl, w, hnorm, -⟩
    · simp
    · dsimp only
      have ha' : 0 ≤ s'.accuracy := by rw [s1.accuracy]; exact ha
      by_cases hsmall : norm err ≤ s'.accuracy
      · obtain ⟨next, b, e1, -⟩ := calcAdjusted_small (root := c.root) (t := s'.time) atMin hh0 hh1 hsmall
        rw [e1]; simp
      · have hbig := not_le.1 hsmall
        have hpos : 0 < h := by
          rcases hh0.eq_or_lt with hz | hz
          · exact absurd ((hnorm _ ha').2 (hz ▸ within_zero _ _ _ _ ha')) hsmall
          · exact hz
        obtain ⟨l1, l2⟩ := calcAdjusted_large hroot (t := s'.time) (atMin := atMin) ha' hh0 hh1 hbig hpos
        cases hb : atMin
        · rw [hb] at l2
          rcases l2 rfl with ⟨l2, -⟩ | ⟨next, l2, l3, l4⟩
          · rw [l2]; simp
          · rw [l2]
            dsimp only
            cases hd : dropSegment s'.dense with
            | error e => simp
            | ok d =>
              dsimp only
              have hnp : tol ≤ next := (tol_le_workingMinimum _).trans l4
              have hna : next ≤ 91 / 100 * attempt := by linarith
              match n with
              | 0 => exfalso; simp at hn; linarith
              | n + 1 =>
                refine attempts_returns c hroot hmax h0 hms n _ next _ ?_ (tol_pos.le.trans hnp) (lt_of_le_of_lt ?_ hn)
                · exact ha'
                · calc next * (91 / 100) ^ n ≤ 91 / 100 * attempt * (91 / 100) ^ n :=
                        mul_le_mul_of_nonneg_right hna (by positivity)
                    _ = attempt * (91 / 100) ^ (n + 1) := by ring
        · rw [hb] at l1
          rw [l1 rfl]; simp

theorem target_eq (t m b : R) (h : b ≤ t + m) : (if t + m < b then t + m else b) = b := if_neg (not_lt.2 h)

/-- What a step of the integrator keeps, and how far it gets if it returns. -/
theorem integrateNoFurther_progress (hu : Usable c) (n : Nat) (s : State R) (hi : Inv c s) (hin : s.initialized = true)
    (boundary : R) (hb : s.time ≤ boundary) (hb' : boundary ≤ s.time + c.maxStep) :
    Frame s (integrateNoFurther c n s boundary).1 ∧ Inv c (integrateNoFurther c n s boundary).1 ∧
    ((integrateNoFurther c n s boundary).2 = .ok () →
      ∃ h, Progress c s (integrateNoFurther c n s boundary).1 (boundary - s.time) (s.ideal.getD c.initialStep) h) := by
  have hms := hi.maxStep_nonneg hin
  by_cases hne : s.state = []
  · rw [integrateNoFurther_empty n s hin hne boundary hb]
    refine ⟨⟨rfl, rfl, rfl, rfl, rfl⟩, ⟨hi.same, hi.len, hi.ideal, hi.init⟩, fun _ => ⟨boundary - s.time, by linarith, le_refl _, by
      dsimp only; ring, ?_, fun _ => .inl rfl, .inl rfl⟩⟩
    exact (min_le_left _ _).trans (min_le_left _ _)
  · obtain ⟨f1, f2, -, -⟩ := integrateNoFurther_spec hu n s hi hin hne boundary hb
    refine ⟨f1, f2, ?_⟩
    unfold integrateNoFurther
    rw [if_neg (by rw [hin]; simp), if_neg (by linarith), if_neg (by simpa using hne)]
    dsimp only
    rw [target_eq _ _ _ hb', if_neg (by linarith)]
    have := attempts_progress c hu.root (boundary - s.time) (by linarith) hms n s (s.ideal.getD c.initialStep) false
      (hi.accuracy_nonneg hu hin) (hi.attempt_nonneg hin)
    generalize attempts c (boundary - s.time) n s (s.ideal.getD c.initialStep) false = r at this ⊢
    obtain ⟨s', r⟩ := r
    cases r with
    | error e => exact nofun
    | ok full =>
      intro _
      obtain ⟨h, p⟩ := this full rfl
      dsimp only at p ⊢
      split
      · refine ⟨boundary - s.time, by linarith, le_refl _, by dsimp only; ring, p.low.trans p.le, fun _ => .inl rfl, p.ideal⟩
      · exact ⟨h, p⟩

theorem integrateNoFurther_returns (hu : Usable c) (n : Nat) (s : State R) (hi : Inv c s) (hin : s.initialized = true)
    (boundary : R) (hb : s.time ≤ boundary) (hn : s.ideal.getD c.initialStep * (91 / 100) ^ n < tol) :
    (integrateNoFurther c (n + 1) s boundary).2 ≠ .error .depth := by
  have hms := hi.maxStep_nonneg hin
  unfold integrateNoFurther
  rw [if_neg (by rw [hin]; simp), if_neg (by linarith)]
  split
  · simp
  · dsimp only
    generalize (if s.time + c.maxStep < boundary then s.time + c.maxStep else boundary) = target
    split
    · simp
    · rename_i h
      have := attempts_returns c hu.root _ (not_lt.1 h) hms n s (s.ideal.getD c.initialStep) false
        (hi.accuracy_nonneg hu hin) (hi.attempt_nonneg hin) hn
      generalize attempts c _ (n + 1) s (s.ideal.getD c.initialStep) false = r at this ⊢
      obtain ⟨s', r⟩ := r
      cases r with
      | error e => simpa using this
      | ok full => simp

/-- A lower bound for the progress of a step that does not reach the end. -/
def progress (c : Setup R) : R := 95 / 100 * least c

theorem progress_pos (h : 0 < c.maxStep) : 0 < progress c :=
  mul_pos (by norm_num) (lt_min (mul_pos (by norm_num) tol_pos) h)

/-- An upper bound for step sizes at times within a bound. -/
def largest (c : Setup R) (T : R) : R := max c.maxStep (tol * max 1 (T + c.maxStep))

theorem abs_le_of_between {a b t : R} (h1 : a ≤ t) (h2 : t ≤ b) : |t| ≤ max |a| |b| := by
  rw [abs_le]
  constructor
  · have := neg_abs_le a; have := le_max_left |a| |b|; linarith
  · have := le_abs_self b; have := le_max_right |a| |b|; linarith

/-- Two steps of the loop need be told apart: the one before there is an ideal step size, and the others. -/
theorem integrateTo_returns (hu : Usable c) (hpos : 0 < c.maxStep) (n : Nat) (tf T : R) (B : R)
    (hB : largest c T ≤ B) (hn : B * (91 / 100) ^ n < tol) (hT : |tf| ≤ T) :
    ∀ (m : Nat) (s : State R), Inv c s → s.initialized = true → s.time ≤ tf → |s.time| ≤ T →
    (s.ideal.getD c.initialStep ≤ B) → tf - s.time < (if s.ideal.isSome then (m : R) else m - 1) * progress c →
    (integrateTo c (n + 1) tf (m + 1) s).2 ≠ .error .depth
  | m, s, hi, hin, hle, hsT, hB', hm => by
    have hp := progress_pos hpos
    have hms := hi.maxStep_nonneg hin
    have hb : s.time ≤ min tf (s.time + c.maxStep) := le_min hle (by linarith)
    obtain ⟨f1, f2, f3⟩ := integrateNoFurther_progress hu (n + 1) s hi hin _ hb (min_le_right _ _)
    have hret := integrateNoFurther_returns hu n s hi hin _ hb
      (lt_of_le_of_lt (mul_le_mul_of_nonneg_right hB' (by positivity)) hn)
    unfold integrateTo
    generalize integrateNoFurther c (n + 1) s (min tf (s.time + c.maxStep)) = r at f1 f2 f3 hret ⊢
    obtain ⟨s', r⟩ := r
    cases r with
    | error e => exact hret
    | ok u =>
      obtain ⟨h, p⟩ := f3 rfl
      dsimp only at p f1 f2 ⊢
      split
      · rename_i hlt
        have hl0 : least c ≤ 95 / 100 * tol := min_le_left _ _
        have hl1 : least c ≤ c.maxStep := min_le_right _ _
        have hln := least_nonneg (c := c) hms
        have ht := tol_pos (R := R)
        have hne : h < tf - s.time := by have := p.time; linarith
        have hgap : min tf (s.time + c.maxStep) - s.time ≤ c.maxStep := by
          have := min_le_right tf (s.time + c.maxStep); linarith
        have hfull : h = min tf (s.time + c.maxStep) - s.time → h = c.maxStep := by
          intro hf
          rcases min_choice tf (s.time + c.maxStep) with h1 | h1
          · rw [h1] at hf; linarith
          · rw [h1] at hf; linarith
        have hs'T : |s'.time| ≤ T := by
          refine (abs_le_of_between (a := s.time) (b := tf) ?_ hlt.le).trans (max_le hsT hT)
          rw [p.time]; have := p.nonneg; linarith
        have hB'' : s'.ideal.getD c.initialStep ≤ B := by
          rcases p.ideal with h1 | ⟨j, h1, h3⟩
          · rw [h1]; exact hB'
          · rw [h1]
            exact h3.trans (le_trans (max_le_max (le_refl _) (mul_le_mul_of_nonneg_left (max_le_max (le_refl _)
              (by linarith)) tol_pos.le)) hB)
        have hpm : progress c ≤ c.maxStep := by unfold progress; linarith
        -- the measure goes down
        have hdown : tf - s'.time < (if s'.ideal.isSome then ((m : R) - 1) else m - 1 - 1) * progress c := by
          rw [p.time]
          rcases hsi : s.ideal with _ | i
          · rw [hsi] at hm
            simp only [Option.isSome_none, Bool.false_eq_true, if_false] at hm
            rcases hsi' : s'.ideal with _ | j
            · simp only [Option.isSome_none, Bool.false_eq_true, if_false]
              rcases p.full hgap with hf | ⟨i, hf⟩
              · have := hfull hf; linarith
              · rw [hsi'] at hf; cases hf
            · simp only [Option.isSome_some, if_true]
              have := p.nonneg; linarith
          · rw [hsi] at hm
            simp only [Option.isSome_some, if_true] at hm
            have hsi' : s'.ideal.isSome = true := by
              rcases p.ideal with h1 | ⟨j, h1, -⟩
              · rw [h1, hsi]; rfl
              · rw [h1]; rfl
            rw [hsi', if_pos rfl]
            have hadv : progress c ≤ h := by
              have hleast := hi.ideal i hsi
              have o2 := p.low
              rw [hsi] at o2
              unfold progress
              rcases min_le_iff.1 o2 with h1 | h1
              · rcases min_le_iff.1 h1 with h1 | h1
                · rcases min_choice tf (s.time + c.maxStep) with h2 | h2 <;> rw [h2] at h1 <;> linarith
                · linarith
              · simp only [Option.getD_some] at h1
                rcases min_le_iff.1 h1 with h1 | h1 <;> linarith
            linarith
        have hgt : 0 < tf - s'.time := by linarith
        match m with
        | 0 =>
          exfalso
          have : (if s'.ideal.isSome then (((0 : ℕ) : R) - 1) else ((0 : ℕ) : R) - 1 - 1) * progress c ≤ 0 := by
            refine mul_nonpos_of_nonpos_of_nonneg ?_ hp.le
            split <;> norm_num
          linarith
        | m + 1 =>
          refine integrateTo_returns hu hpos n tf T B hB hn hT m s' f2 (f1.initialized.trans hin) hlt.le hs'T hB'' ?_
          push_cast at hdown
          rwa [add_sub_cancel_right] at hdown
      · simp

/-- Bounds for the numbers of attempts and steps that suffice. -/
theorem bounds_exist [Archimedean R] (hpos : 0 < c.maxStep) (B d : R) :
    ∃ n m : Nat, B * (91 / 100) ^ n < tol ∧ d < m * progress c := by
  obtain ⟨m, hm⟩ := exists_nat_gt (d / progress c)
  have hm : d < m * progress c := (div_lt_iff₀ (progress_pos hpos)).1 hm
  rcases le_or_gt B 0 with hB | hB
  · exact ⟨0, m, by simpa using hB.trans_lt tol_pos, hm⟩
  · obtain ⟨n, hn⟩ := exists_pow_lt_of_lt_one (div_pos tol_pos hB) (show (91 / 100 : R) < 1 by norm_num)
    refine ⟨n, m, ?_, hm⟩
    rw [mul_comm]
    exact (lt_div_iff₀ hB).1 hn

theorem attempts_mono (c : Setup R) (hmax : R) : ∀ (n n' : Nat) (s : State R) (attempt : R) (atMin : Bool), n ≤ n' →
    (attempts c hmax n s attempt atMin).2 ≠ .error .depth →
    attempts c hmax n' s attempt atMin = attempts c hmax n s attempt atMin
  | 0, _, _, _, _, _, h => absurd rfl h
  | n + 1, 0, _, _, _, hn, _ => by omega
  | n + 1, n' + 1, s, attempt, atMin, hn, h => by
    unfold attempts at h ⊢
    dsimp only at h ⊢
    generalize step c.f s (stepSize c.maxStep hmax attempt) = r at h ⊢
    obtain ⟨s', r⟩ := r
    cases r with
    | error e => rfl
    | ok err =>
      dsimp only at h ⊢
      generalize calcAdjusted c.root s'.accuracy c.maxStep s'.time (norm err) (stepSize c.maxStep hmax attempt) atMin = q at h ⊢
      match q with
      | .error e => rfl
      | .ok (true, next, _) => rfl
      | .ok (false, next, atMin') =>
        dsimp only at h ⊢
        generalize dropSegment s'.dense = d at h ⊢
        cases d with
        | error e => rfl
        | ok d => exact attempts_mono c hmax n n' _ next atMin' (by omega) h

theorem integrateNoFurther_mono (c : Setup R) (n n' : Nat) (s : State R) (boundary : R) (hn : n ≤ n')
    (h : (integrateNoFurther c n s boundary).2 ≠ .error .depth) :
    integrateNoFurther c n' s boundary = integrateNoFurther c n s boundary := by
  unfold integrateNoFurther at h ⊢
  split
  · rfl
  · rename_i h1
    rw [if_neg h1] at h
    split
    · rfl
    · rename_i h2
      rw [if_neg h2] at h
      split
      · rfl
      · rename_i h4
        rw [if_neg h4] at h
        dsimp only at h ⊢
        generalize (if s.time + c.maxStep < boundary then s.time + c.maxStep else boundary) = target at h ⊢
        split
        · rfl
        · rename_i h3
          rw [if_neg h3] at h
          rw [attempts_mono c _ n n' _ _ _ hn]
          intro hd
          generalize attempts c (target - s.time) n s (s.ideal.getD c.initialStep) false = r at h hd
          obtain ⟨s', r⟩ := r
          dsimp only at hd
          subst hd
          exact h rfl

theorem integrateTo_mono (c : Setup R) (n n' : Nat) (hn : n ≤ n') (tf : R) : ∀ (m m' : Nat) (s : State R), m ≤ m' →
    (integrateTo c n tf m s).2 ≠ .error .depth → integrateTo c n' tf m' s = integrateTo c n tf m s
  | 0, _, _, _, h => absurd rfl h
  | m + 1, 0, _, hm, _ => by omega
  | m + 1, m' + 1, s, hm, h => by
    unfold integrateTo at h ⊢
    rw [integrateNoFurther_mono c n n' s _ hn (by
      intro hd
      generalize integrateNoFurther c n s (min tf (s.time + c.maxStep)) = r at h hd
      obtain ⟨s', r⟩ := r
      dsimp only at hd
      subst hd
      exact h rfl)]
    generalize integrateNoFurther c n s (min tf (s.time + c.maxStep)) = r at h ⊢
    obtain ⟨s', r⟩ := r
    cases r with
    | error e => rfl
    | ok u =>
      dsimp only at h ⊢
      split
      · rename_i hlt
        rw [if_pos hlt] at h
        exact integrateTo_mono c n n' hn tf m m' s' (by omega) h
      · rfl

theorem run_returns [Archimedean R] (hu : Usable c) (hpos : 0 < c.maxStep) (tf : R) (s : State R) (hi : Inv c s)
    (hin : s.initialized = true) (hle : s.time ≤ tf) :
    ∃ N, (integrateTo c N tf N s).2 ≠ .error .depth ∧ ∀ n m, N ≤ n → N ≤ m → integrateTo c n tf m s = integrateTo c N tf N s := by
  obtain ⟨n, m, hn, hm⟩ := bounds_exist (c := c) hpos
    (max (largest c (max |s.time| |tf|)) (s.ideal.getD c.initialStep)) (tf - s.time)
  have hp := progress_pos hpos
  have := integrateTo_returns hu hpos n tf (max |s.time| |tf|) _ (le_max_left _ _) hn (le_max_right _ _) (m + 1) s hi hin hle
    (le_max_left _ _) (le_max_right _ _) (by
      push_cast
      split <;> linarith)
  refine ⟨max (n + 1) (m + 2), ?_, fun n' m' hn' hm' => ?_⟩
  · rw [integrateTo_mono c (n + 1) _ (le_max_left _ _) tf (m + 2) _ s (le_max_right _ _) this]; exact this
  · rw [integrateTo_mono c (n + 1) n' (by omega) tf (m + 2) m' s (by omega) this,
      integrateTo_mono c (n + 1) _ (le_max_left _ _) tf (m + 2) _ s (le_max_right _ _) this]

/-! ### Calls -/

/-- Integration keeps the invariant, also for states without elements. -/
theorem integrateTo_keeps (hu : Usable c) (n : Nat) (tf : R) : ∀ (m : Nat) (s : State R), Inv c s → s.initialized = true →
    s.time ≤ tf → Inv c (integrateTo c n tf m s).1
  | 0, s, hi, _, _ => hi
  | m + 1, s, hi, hin, hle => by
    have hms := hi.maxStep_nonneg hin
    obtain ⟨f1, f2, f3⟩ := integrateNoFurther_progress hu n s hi hin (min tf (s.time + c.maxStep)) (le_min hle (by linarith)) (min_le_right _ _)
    unfold integrateTo
    generalize integrateNoFurther c n s (min tf (s.time + c.maxStep)) = r at f1 f2 f3 ⊢
    obtain ⟨s', r⟩ := r
    cases r with
    | error e => exact f2
    | ok u =>
      dsimp only
      split
      · rename_i hlt
        exact integrateTo_keeps hu n tf m s' f2 (f1.initialized.trans hin) hlt.le
      · exact f2

/-- What `solve` does: it refuses, or integrates from a state that does not depend on the numbers. -/
theorem solve_eq (hi : Inv c s) (tf : R) (v : Values R) :
    (∃ s', Inv c s' ∧ (∀ n m, solve c n m tf v s = (s', .error (.err .throws))) ∧
      (∀ p, sanitize c.defaults tf v = .ok p → 0 ≤ c.initialStep → ¬ c.initialStep ≤ c.maxStep)) ∨
    ∃ s' p, Inv c s' ∧ s'.initialized = true ∧ s'.time ≤ tf ∧ sanitize c.defaults tf v = .ok p ∧ s'.current = p ∧
      (s.dense = none → s'.dense = none) ∧ (s.current.t0 ≤ s.time → p.t0 ≤ s'.time) ∧
      ∀ n m, solve c n m tf v s = (match integrateTo c n tf m s' with
        | (s'', .error e) => (s'', .error e)
        | (s'', .ok ()) => (s'', .ok s''.state)) := by
  cases hp : sanitize c.defaults tf v with
  | error e =>
    left
    cases sanitize_error hp
    exact ⟨s, hi, fun n m => by unfold solve; rw [hp], nofun⟩
  | ok p =>
    obtain ⟨-, h0, hl, -⟩ := sanitize_ok.1 hp
    obtain ⟨p1, p2, p3, -⟩ := prepared hi h0 hl
    have p4 : s.dense = none → (resetIfNecessary c tf p s).dense = none := by
      unfold resetIfNecessary
      split
      · exact fun _ => rfl
      · exact id
    have p5 : s.current.t0 ≤ s.time → p.t0 ≤ (resetIfNecessary c tf p s).time := by
      unfold resetIfNecessary
      split
      · exact fun _ => le_refl _
      · rename_i h
        simp only [not_or, ne_eq, not_not] at h
        rw [h.1]; exact id
    have hs : ∀ n m, solve c n m tf v s =
        (match (if (resetIfNecessary c tf p s).initialized = false then setUp c (resetIfNecessary c tf p s)
            else (resetIfNecessary c tf p s, .ok ())) with
          | (s', .error e) => (s', .error e)
          | (s', .ok ()) =>
            match integrateTo c n tf m s' with
            | (s'', .error e) => (s'', .error e)
            | (s'', .ok ()) => (s'', .ok s''.state)) := by
      intro n m
      unfold solve
      rw [hp]
      rfl
    generalize resetIfNecessary c tf p s = s1 at p1 p2 p3 p4 p5 hs
    by_cases hin : s1.initialized = false
    · rw [if_pos hin] at hs
      rcases setUp_spec s1 c with ⟨h, -⟩ | ⟨h, h1, h2⟩
      · rw [h] at hs
        refine .inl ⟨s1, p1, hs, fun _ _ h0 h1 => ?_⟩
        unfold setUp at h
        rw [if_neg (not_lt.2 (h0.trans h1)), if_neg (not_lt.2 h1), if_neg (not_lt.2 h0)] at h
        cases congrArg Prod.snd h
      · rw [h] at hs
        exact .inr ⟨_, p, p1.setUp h1 h2, rfl, p3, rfl, p2, p4, p5, hs⟩
    · rw [if_neg hin] at hs
      exact .inr ⟨_, p, p1, by simpa using hin, p3, rfl, p2, p4, p5, hs⟩

theorem solve_returns [Archimedean R] (hu : Usable c) (hpos : 0 < c.maxStep) (tf : R) (v : Values R) (s : State R) (hi : Inv c s) :
    ∃ N r, Inv c r.1 ∧ r.2 ≠ .error .depth ∧ ∀ n m, N ≤ n → N ≤ m → solve c n m tf v s = r := by
  rcases solve_eq hi tf v with ⟨s', h1, h2, -⟩ | ⟨s', p, h1, h2, h3, -, -, -, -, h4⟩
  · exact ⟨0, _, h1, by simp, fun n m _ _ => h2 n m⟩
  · obtain ⟨N, hN, hN'⟩ := run_returns hu hpos tf s' h1 h2 h3
    have hk := integrateTo_keeps hu N tf N s' h1 h2 h3
    refine ⟨N, _, ?_, ?_, fun n m hn hm => by rw [h4 n m, hN' n m hn hm]⟩
    · generalize integrateTo c N tf N s' = r at hk
      obtain ⟨s3, r⟩ := r
      cases r <;> exact hk
    · generalize integrateTo c N tf N s' = r at hN
      obtain ⟨s3, r⟩ := r
      cases r with
      | error e => simpa using hN
      | ok u => simp

theorem denseSolve_returns [Archimedean R] (hu : Usable c) (hpos : 0 < c.maxStep) (tf : R) (v : Values R) (s : State R) (hi : Inv c s) :
    ∃ N r, Inv c r.1 ∧ r.2 ≠ .error .depth ∧ ∀ n m, N ≤ n → N ≤ m → denseSolve c n m tf v s = r := by
  cases hp : sanitize c.defaults tf v with
  | error e =>
    cases sanitize_error hp
    exact ⟨0, (s, .error (.err .throws)), hi, by simp, fun n m _ _ => by unfold denseSolve; rw [hp]⟩
  | ok p =>
    obtain ⟨-, h0, hl, -⟩ := sanitize_ok.1 hp
    rcases setUp_spec (reset c p s) c with ⟨h, -⟩ | ⟨h, h1, h2⟩
    · exact ⟨0, (reset c p s, .error (.err .throws)), inv_reset hl s, by simp, fun n m _ _ => by
        unfold denseSolve; rw [hp]; dsimp only; rw [h]⟩
    · have i0 := (inv_reset (c := c) hl s).setUp h1 h2
      by_cases hne : p.x0.length = 0
      · refine ⟨0, (_, .error (.err .throws)), i0, by simp, fun n m _ _ => ?_⟩
        unfold denseSolve; rw [hp]; dsimp only; rw [h]; dsimp only; rw [if_pos (by exact hne)]
      · have i1 : Inv c { { reset c p s with accuracy := min c.accuracy (1 / 10), initialized := true } with dense := some [] } :=
          ⟨rfl, hl, nofun, fun _ => ⟨rfl, h1, h2⟩⟩
        obtain ⟨N, hN, hN'⟩ := run_returns hu hpos tf _ i1 rfl h0
        have hk := integrateTo_keeps hu N tf N _ i1 rfl h0
        have heq : ∀ n m, denseSolve c n m tf v s =
            (match integrateTo c n tf m { { reset c p s with accuracy := min c.accuracy (1 / 10), initialized := true } with dense := some [] } with
            | (s'', .error e) => (s'', .error e)
            | (s'', .ok ()) =>
              match s''.dense with
              | none => (s'', .error (.err .throws))
              | some d => ({ s'' with dense := none }, if d = [] then .error (.err .throws) else .ok d)) := by
          intro n m
          unfold denseSolve; rw [hp]; dsimp only; rw [h]; dsimp only; rw [if_neg (by exact hne)]; rfl
        refine ⟨N, _, ?_, ?_, fun n m hn hm => by rw [heq n m, hN' n m hn hm]⟩
        · generalize integrateTo c N tf N _ = r at hk
          obtain ⟨s3, r⟩ := r
          cases r with
          | error e => exact hk
          | ok u =>
            dsimp only at hk ⊢
            cases s3.dense with
            | none => exact hk
            | some d => exact ⟨hk.same, hk.len, hk.ideal, hk.init⟩
        · generalize integrateTo c N tf N _ = r at hN
          obtain ⟨s3, r⟩ := r
          cases r with
          | error e => simpa using hN
          | ok u =>
            dsimp only
            cases s3.dense with
            | none => simp
            | some d => dsimp only; split <;> simp

theorem solve_ok_state {n m : Nat} {tf : R} {v : Values R} {x : List R} (h : (solve c n m tf v s).2 = .ok x) :
    (solve c n m tf v s).1.state = x := by
  unfold solve at h ⊢
  cases hp : sanitize c.defaults tf v with
  | error e => rw [hp] at h; cases h
  | ok p =>
    rw [hp] at h
    dsimp only at h ⊢
    generalize (if (resetIfNecessary c tf p s).initialized = false then setUp c (resetIfNecessary c tf p s)
      else (resetIfNecessary c tf p s, Except.ok ())) = q at h ⊢
    obtain ⟨s1, q⟩ := q
    cases q with
    | error e => cases h
    | ok u =>
      dsimp only at h ⊢
      generalize integrateTo c n tf m s1 = q at h ⊢
      obtain ⟨s2, q⟩ := q
      cases q with
      | error e => cases h
      | ok u => cases h; rfl

/-- With enough attempts and steps the state after the calls does not depend on their number. -/
theorem after_settles [Archimedean R] (hu : Usable c) (hpos : 0 < c.maxStep) (calls : List (Call R)) :
    ∃ N s, Inv c s ∧ ∀ n m, N ≤ n → N ≤ m → after c n m calls = s := by
  induction calls using List.reverseRecOn with
  | nil => exact ⟨0, fresh c, inv_fresh c, fun _ _ _ _ => rfl⟩
  | append_singleton l a ih =>
    obtain ⟨N, s, hi, hs⟩ := ih
    have : ∃ N' s', Inv c s' ∧ ∀ n m, N' ≤ n → N' ≤ m → call c n m a s = s' := by
      cases a with
      | solve tf v =>
        obtain ⟨N', r, hr, -, h⟩ := solve_returns hu hpos tf v s hi
        exact ⟨N', r.1, hr, fun n m hn hm => by show (solve c n m tf v s).1 = _; rw [h n m hn hm]⟩
      | denseSolve tf v =>
        obtain ⟨N', r, hr, -, h⟩ := denseSolve_returns hu hpos tf v s hi
        exact ⟨N', r.1, hr, fun n m hn hm => by show (denseSolve c n m tf v s).1 = _; rw [h n m hn hm]⟩
    obtain ⟨N', s', hi', h'⟩ := this
    refine ⟨max N N', s', hi', fun n m hn hm => ?_⟩
    rw [after_snoc, hs n m (by omega) (by omega), h' n m (by omega) (by omega)]

/-! ### No exceptions -/

theorem slope_total {size : Nat} {a b : R} {s : State R} (ht : Total (c.rhs s.k) size a b) (h1 : a ≤ s.time) (h2 : s.time ≤ b)
    (hl : s.state.length = size) : ∃ d, slope c.f s = .ok d ∧ d.length = s.state.length := by
  obtain ⟨d, hd⟩ := ht _ _ h1 h2 hl
  exact ⟨d, slope_ok.2 hd, hd.2⟩

theorem step_total {size : Nat} {a b h : R} {s : State R} (ht : Total (c.rhs s.k) size a b) (hl : s.state.length = size)
    (hd : s.dense = none) (hh : 0 ≤ h) (h1 : a ≤ s.time) (h2 : s.time + h ≤ b) :
    (step c.f s h).1.dense = none ∧ ∃ err, (step c.f s h).2 = .ok err := by
  have hdd := (doStep_spec c s h).2.2.1
  unfold step
  rw [hd]
  dsimp only
  refine ⟨hdd.trans hd, ?_⟩
  obtain ⟨d0, e0, l0⟩ := slope_total ht h1 (by linarith) hl
  have la := plus_length (h / 2) l0
  obtain ⟨da, ea, la'⟩ := slope_total (s := { s with time := s.time + h / 2, state := plus s.state (h / 2) d0 }) ht
    (by dsimp only; linarith) (by dsimp only; linarith) (la.trans hl)
  have lda : da.length = s.state.length := la'.trans la
  have lb0 := plus_length (-h) l0
  have lb := (plus_length (2 * h) (lda.trans lb0.symm)).trans lb0
  obtain ⟨db, eb, -⟩ := slope_total (s := { s with time := s.time + h, state := plus (plus s.state (-h) d0) (2 * h) da }) ht
    (by dsimp only; linarith) (by dsimp only; linarith) (lb.trans hl)
  unfold doStep
  rw [e0]; dsimp only
  rw [ea]; dsimp only
  rw [eb]
  exact ⟨_, rfl⟩

theorem workingMinimum_ten (t : R) : 10 * workingMinimum t = 1 / 10000000000000 * max 1 |t| := by
  rw [Ode.workingMinimum_eq]; unfold tol; ring

theorem attempts_no_throw (c : Setup R) (hroot : RootOk c.root) (hmax : R) (h0 : 0 ≤ hmax) (hms : 0 ≤ c.maxStep) (size : Nat)
    (a b : R) : ∀ (n : Nat) (s : State R) (attempt : R) (atMin : Bool), 0 ≤ s.accuracy → s.accuracy = min c.accuracy (1 / 10) →
    0 ≤ attempt → s.dense = none → s.state.length = size → Total (c.rhs s.k) size a b →
    Smooth (c.rhs s.k) size (min c.accuracy (1 / 10)) a b → a ≤ s.time → s.time + hmax ≤ b →
    (attempts c hmax n s attempt atMin).1.dense = none ∧ s.time ≤ (attempts c hmax n s attempt atMin).1.time ∧
      ∀ e, (attempts c hmax n s attempt atMin).2 ≠ .error (.err e)
  | 0, s, attempt, atMin, ha, hacc, hat, hd, hl, ht, hsm, hsa, hsb => ⟨hd, le_refl _, by simp [attempts]⟩
  | n + 1, s, attempt, atMin, ha, hacc, hat, hd, hl, ht, hsm, hsa, hsb => by
    have hh0 := stepSize_nonneg hms h0 hat
    obtain ⟨hh1, hh2, hh3⟩ := stepSize_le (maxStep := c.maxStep) h0 hat
    unfold attempts
    dsimp only
    generalize stepSize c.maxStep hmax attempt = h at hh0 hh1 hh2 hh3 ⊢
    obtain ⟨s1, s2, s3⟩ := step_spec c s h
    obtain ⟨s7, err', s8⟩ := step_total (h := h) ht hl hd hh0 hsa (by linarith)
    generalize step c.f s h = r at s1 s2 s3 s7 s8 ⊢
    obtain ⟨s', r⟩ := r
    dsimp only at s1 s2 s3 s7 s8 ⊢
    rcases s3 with ⟨⟨e, rfl⟩, -⟩ | ⟨k1, k2, k3, err, rfl, w, hn, -⟩
    · cases s8
    · dsimp only
      have ha' : 0 ≤ s'.accuracy := by rw [s1.accuracy]; exact ha
      have hle : s.time ≤ s'.time := by rw [w.time]; linarith
      by_cases hsmall : norm err ≤ s'.accuracy
      · obtain ⟨next, b, e1, -⟩ := calcAdjusted_small (root := c.root) (t := s'.time) atMin hh0 hh1 hsmall
        rw [e1]; exact ⟨s7, hle, by simp⟩
      · have hbig := not_le.1 hsmall
        have hpos : 0 < h := by
          rcases hh0.eq_or_lt with hz | hz
          · exact absurd ((hn _ ha').2 (hz ▸ within_zero _ _ _ _ ha')) hsmall
          · exact hz
        obtain ⟨l1, l2⟩ := calcAdjusted_large hroot (t := s'.time) (atMin := atMin) ha' hh0 hh1 hbig hpos
        cases hb : atMin
        · rw [hb] at l2
          rcases l2 rfl with ⟨-, l2⟩ | ⟨next, l2, l3, l4⟩
          · exfalso
            rw [w.time, workingMinimum_ten] at l2
            refine hsmall ((hn _ ha').2 ?_)
            rw [s1.accuracy, hacc, hl]
            exact hsm s.time s.state h k1 k2 k3 hl hsa (by linarith) hpos l2 w.stages
          · rw [l2]
            dsimp only
            rw [s7]
            show (attempts c hmax n { s' with time := s.time, state := s.state, dense := none } next _).1.dense = none ∧ _
            exact attempts_no_throw c hroot hmax h0 hms size a b n _ next _ ha' (s1.accuracy.trans hacc)
              ((tol_pos.le.trans (tol_le_workingMinimum _)).trans l4) rfl hl (by dsimp only; rw [s1.k]; exact ht)
              (by dsimp only; rw [s1.k]; exact hsm) hsa hsb
        · rw [hb] at l1
          rw [l1 rfl]; exact ⟨s7, hle, by simp⟩

theorem integrateNoFurther_no_throw (hu : Usable c) (n : Nat) (s : State R) (hi : Inv c s) (hin : s.initialized = true)
    (boundary : R) (hb : s.time ≤ boundary) {size : Nat} (a b : R) (hd : s.dense = none) (hl : s.state.length = size)
    (ht : Total (c.rhs s.k) size a b) (hsm : Smooth (c.rhs s.k) size (min c.accuracy (1 / 10)) a b) (hsa : a ≤ s.time)
    (hsb : boundary ≤ b) : (integrateNoFurther c n s boundary).1.dense = none ∧ s.time ≤ (integrateNoFurther c n s boundary).1.time ∧
      ∀ e, (integrateNoFurther c n s boundary).2 ≠ .error (.err e) := by
  have hms := hi.maxStep_nonneg hin
  by_cases hne : s.state = []
  · rw [integrateNoFurther_empty n s hin hne boundary hb]
    exact ⟨hd, hb, by simp⟩
  unfold integrateNoFurther
  rw [if_neg (by rw [hin]; simp), if_neg (by linarith), if_neg (by simpa using hne)]
  dsimp only
  have htb : (if s.time + c.maxStep < boundary then s.time + c.maxStep else boundary) ≤ b := by
    split <;> linarith
  have htt : s.time ≤ (if s.time + c.maxStep < boundary then s.time + c.maxStep else boundary) := by
    split <;> linarith
  generalize (if s.time + c.maxStep < boundary then s.time + c.maxStep else boundary) = target at htb htt ⊢
  rw [if_neg (by linarith)]
  obtain ⟨q1, q3, q2⟩ := attempts_no_throw c hu.root (target - s.time) (by linarith) hms size a b n s (s.ideal.getD c.initialStep) false
    (hi.accuracy_nonneg hu hin) (hi.init hin).1 (hi.attempt_nonneg hin) hd hl ht hsm hsa (by linarith)
  generalize attempts c (target - s.time) n s (s.ideal.getD c.initialStep) false = r at q1 q2 q3 ⊢
  obtain ⟨s', r⟩ := r
  dsimp only at q1 q2 q3
  cases r with
  | error e =>
    refine ⟨q1, q3, fun e' h => q2 e' ?_⟩
    have : e = .err e' := by simpa using h
    rw [this]
  | ok full =>
    refine ⟨?_, ?_, by simp⟩
    · dsimp only
      split <;> exact q1
    · dsimp only
      split
      · exact htt
      · exact q3

theorem integrateTo_no_throw (hu : Usable c) (n : Nat) (tf a : R) {size : Nat} : ∀ (m : Nat) (s : State R), Inv c s →
    s.initialized = true → s.time ≤ tf → s.dense = none → s.state.length = size → Total (c.rhs s.k) size a tf →
    Smooth (c.rhs s.k) size (min c.accuracy (1 / 10)) a tf → a ≤ s.time →
    (integrateTo c n tf m s).1.dense = none ∧ s.time ≤ (integrateTo c n tf m s).1.time ∧
      (integrateTo c n tf m s).1.current = s.current ∧ ∀ e, (integrateTo c n tf m s).2 ≠ .error (.err e)
  | 0, s, hi, hin, hle, hd, hl, ht, hsm, ha => ⟨hd, le_refl _, rfl, by simp [integrateTo]⟩
  | m + 1, s, hi, hin, hle, hd, hl, ht, hsm, ha => by
    have hms := hi.maxStep_nonneg hin
    have hb : s.time ≤ min tf (s.time + c.maxStep) := le_min hle (by linarith)
    obtain ⟨f1, f2, -⟩ := integrateNoFurther_progress hu n s hi hin _ hb (min_le_right _ _)
    obtain ⟨q1, q3, q2⟩ := integrateNoFurther_no_throw hu n s hi hin _ hb a tf hd hl ht hsm ha (min_le_left _ _)
    unfold integrateTo
    generalize integrateNoFurther c n s (min tf (s.time + c.maxStep)) = r at f1 f2 q1 q2 q3 ⊢
    obtain ⟨s', r⟩ := r
    dsimp only at f1 f2 q1 q2 q3
    cases r with
    | error e => exact ⟨q1, q3, f1.current, q2⟩
    | ok u =>
      dsimp only
      split
      · rename_i hlt
        obtain ⟨r1, r2, r3, r4⟩ := integrateTo_no_throw hu n tf a m s' f2 (f1.initialized.trans hin) hlt.le q1 (f1.len.trans hl)
          (by rw [f1.k]; exact ht) (by rw [f1.k]; exact hsm) (ha.trans q3)
        exact ⟨r1, q3.trans r2, r3.trans f1.current, r4⟩
      · exact ⟨q1, q3, f1.current, by simp⟩

/-- The states that calls of `solve` without exceptions leave. -/
structure Quiet (c : Setup R) (s : State R) : Prop where
  inv : Inv c s
  dense : s.dense = none
  time : s.current.t0 ≤ s.time

theorem quiet_fresh (c : Setup R) : Quiet c (fresh c) := ⟨inv_fresh c, rfl, le_refl _⟩

theorem solve_no_throw (hu : Usable c) (h0 : 0 ≤ c.initialStep) (h1 : c.initialStep ≤ c.maxStep) (n m : Nat) {tf : R} {v : Values R}
    {p : Problem R} (hp : sanitize c.defaults tf v = .ok p) (hq : Quiet c s)
    (ht : Total (c.rhs p.k) c.defaults.x0.length p.t0 tf)
    (hsm : Smooth (c.rhs p.k) c.defaults.x0.length (min c.accuracy (1 / 10)) p.t0 tf) :
    Quiet c (solve c n m tf v s).1 ∧ ∀ e, (solve c n m tf v s).2 ≠ .error (.err e) := by
  rcases solve_eq hq.inv tf v with ⟨s', -, -, h⟩ | ⟨s', p', a1, a2, a3, hp', a4, a5, a6, a7⟩
  · exact absurd h1 (h p hp h0)
  rw [hp] at hp'
  cases hp'
  have hk := a1.same
  rw [a4] at hk
  obtain ⟨q1, q2, q3, q4⟩ := integrateTo_no_throw hu n tf p.t0 m s' a1 a2 a3 (a5 hq.dense) a1.len (by rw [hk]; exact ht)
    (by rw [hk]; exact hsm) (a6 hq.time)
  have hkeep := integrateTo_keeps hu n tf m s' a1 a2 a3
  rw [a7]
  generalize integrateTo c n tf m s' = r at q1 q2 q3 q4 hkeep
  obtain ⟨s3, r⟩ := r
  dsimp only at q1 q2 q3 q4 hkeep
  have quiet : Quiet c s3 := ⟨hkeep, q1, by rw [q3, a4]; exact (a6 hq.time).trans q2⟩
  cases r with
  | error e =>
    refine ⟨quiet, fun e' h => q4 e' ?_⟩
    have : e = .err e' := by simpa using h
    rw [this]
  | ok u => exact ⟨quiet, by simp⟩

end Maliput.Ivp
