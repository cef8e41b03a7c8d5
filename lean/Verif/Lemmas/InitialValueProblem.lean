import Verif.Model.InitialValueProblem
import Verif.Spec.InitialValueProblem
import Verif.Lemmas.IntegratorRuns

set_option autoImplicit false
set_option linter.unusedSectionVars false

/-! Lemmas for initial value problems: one step and the attempts to make one. -/
namespace Maliput.Ivp

open Maliput Piecewise Spec
open Maliput.RouteGraph (Stop)
open Maliput.Ode (calcAdjusted limited stepSize tol tol_pos workingMinimum workingMinimum_le tol_le_workingMinimum RootOk calcAdjusted_large
  calcAdjusted_small stepSize_nonneg stepSize_le stepSize_ge)

variable {R : Type} [Field R] [LinearOrder R] [IsStrictOrderedRing R]

/-! ### Vectors -/

theorem vector_length (n : Nat) (g : Nat → R) : (vector n g).length = n := by simp [vector]

theorem elem_vector {n i : Nat} (g : Nat → R) (h : i < n) : elem (vector n g) i = g i := by
  simp [elem, vector, List.getD_eq_getElem?_getD, h]

theorem vector_elem (x : List R) : vector x.length (elem x) = x := by
  apply List.ext_getElem
  · simp [vector]
  · intro i h1 h2
    simp [vector, elem, List.getD_eq_getElem?_getD, h2]

theorem plus_eq {x d : List R} (a : R) (h : d.length = x.length) :
    plus x a d = vector x.length fun i => elem x i + a * elem d i := by
  apply List.ext_getElem
  · simp [plus, vector, h]
  · intro i h1 h2
    have h3 : i < x.length := by simpa [vector] using h2
    have h4 : i < d.length := h ▸ h3
    simp [plus, vector, elem, List.getD_eq_getElem?_getD, h3, h4]

theorem plus_length {x d : List R} (a : R) (h : d.length = x.length) : (plus x a d).length = x.length := by
  simp [plus, h]

theorem vector_congr {n : Nat} {g g' : Nat → R} (h : ∀ i < n, g i = g' i) : vector n g = vector n g' := by
  unfold vector
  exact List.map_congr_left fun i hi => h i (List.mem_range.1 hi)

theorem kutta_length (x : List R) (h : R) (k1 k2 k3 : List R) : (kutta x h k1 k2 k3).length = x.length := vector_length _ _

theorem kutta_zero (x : List R) (k1 k2 k3 : List R) : kutta x 0 k1 k2 k3 = x := by
  unfold kutta
  rw [vector_congr (g' := elem x) (fun i _ => by ring), vector_elem]

theorem norm_le {v : List R} {a : R} (ha : 0 ≤ a) : norm v ≤ a ↔ ∀ x ∈ v, |x| ≤ a := by
  induction v with
  | nil => simp [norm, ha]
  | cons x v ih =>
    have : norm (x :: v) = max |x| (norm v) := rfl
    rw [this, max_le_iff, ih]
    simp

theorem norm_nonneg (v : List R) : 0 ≤ norm v := by
  induction v with
  | nil => exact le_refl _
  | cons x v ih => exact le_max_of_le_right ih

/-- The right hand side for fixed parameters. -/
abbrev Setup.rhs (c : Setup R) (k : List R) : Rhs R := fun t x => c.f t x k

theorem slope_ok {c : Setup R} {s : State R} {d : List R} :
    slope c.f s = .ok d ↔ Slope (c.rhs s.k) s.time s.state d := by
  unfold slope Slope Setup.rhs
  cases h : c.f s.time s.state s.k with
  | error e => simp [bind, Except.bind]
  | ok d' =>
    simp only [bind, Except.bind, throwUnless, pure, Except.pure]
    by_cases hl : d'.length = s.state.length
    · simp only [hl, decide_true, if_true, Except.ok.injEq]
      constructor
      · rintro rfl; exact ⟨rfl, hl⟩
      · exact fun h => h.1
    · simp only [hl, decide_false, Bool.false_eq_true, if_false, Except.ok.injEq, reduceCtorEq, false_iff, not_and]
      rintro rfl; exact hl

/-- The right hand side fails in this state. -/
def Broken (c : Setup R) (s : State R) : Prop := ∃ e, slope c.f s = .error e

/-- What a step does not change. -/
structure Frame (s s' : State R) : Prop where
  k : s'.k = s.k
  current : s'.current = s.current
  initialized : s'.initialized = s.initialized
  accuracy : s'.accuracy = s.accuracy
  len : s'.state.length = s.state.length

theorem Frame.refl (s : State R) : Frame s s := ⟨rfl, rfl, rfl, rfl, rfl⟩

theorem Frame.trans {s s' s'' : State R} (h : Frame s s') (h' : Frame s' s'') : Frame s s'' :=
  ⟨h'.k.trans h.k, h'.current.trans h.current, h'.initialized.trans h.initialized, h'.accuracy.trans h.accuracy, h'.len.trans h.len⟩

/-- A step of this length leads from one state to the other. -/
structure Went (c : Setup R) (s s' : State R) (h : R) (k1 k2 k3 : List R) : Prop where
  stages : Stages (c.rhs s.k) s.time s.state h k1 k2 k3
  time : s'.time = s.time + h
  state : s'.state = kutta s.state h k1 k2 k3

theorem doStep_spec (c : Setup R) (s : State R) (h : R) :
    Frame s (doStep c.f s h).1 ∧ (doStep c.f s h).1.ideal = s.ideal ∧ (doStep c.f s h).1.dense = s.dense ∧
      ((∃ e, (doStep c.f s h).2 = .error e ∧ Broken c (doStep c.f s h).1) ∨
        ∃ k1 k2 k3 err, (doStep c.f s h).2 = .ok err ∧ slope c.f s = .ok k1 ∧ Went c s (doStep c.f s h).1 h k1 k2 k3 ∧
          ∀ a, 0 ≤ a → (norm err ≤ a ↔ Within s.state.length h k1 k2 k3 a)) := by
  unfold doStep
  cases h0 : slope c.f s with
  | error e => exact ⟨Frame.refl _, rfl, rfl, .inl ⟨e, rfl, e, h0⟩⟩
  | ok d0 =>
    obtain ⟨f0, l0⟩ := slope_ok.1 h0
    dsimp only
    have la := plus_length (h / 2) l0
    cases ha : slope c.f { s with time := s.time + h / 2, state := plus s.state (h / 2) d0 } with
    | error e => exact ⟨⟨rfl, rfl, rfl, rfl, la⟩, rfl, rfl, .inl ⟨e, rfl, e, ha⟩⟩
    | ok da =>
      obtain ⟨fa, la'⟩ := slope_ok.1 ha
      have lda : da.length = s.state.length := la'.trans la
      dsimp only
      have lb0 := plus_length (-h) l0
      have lb := (plus_length (2 * h) (lda.trans lb0.symm)).trans lb0
      cases hb : slope c.f { s with time := s.time + h, state := plus (plus s.state (-h) d0) (2 * h) da } with
      | error e => exact ⟨⟨rfl, rfl, rfl, rfl, lb⟩, rfl, rfl, .inl ⟨e, rfl, e, hb⟩⟩
      | ok db =>
        obtain ⟨fb, lb'⟩ := slope_ok.1 hb
        have ldb : db.length = s.state.length := lb'.trans lb
        dsimp only at fa fb ⊢
        have e1 := plus_length (h / 6) l0
        have e2 := (plus_length (4 * (h / 6)) (lda.trans e1.symm)).trans e1
        have e3 := (plus_length (h / 6) (ldb.trans e2.symm)).trans e2
        have hx : plus (plus (plus s.state (h / 6) d0) (4 * (h / 6)) da) (h / 6) db = kutta s.state h d0 da db := by
          rw [plus_eq _ (ldb.trans e2.symm), e2]
          apply vector_congr
          intro i hi
          rw [plus_eq _ (lda.trans e1.symm), e1, elem_vector _ hi, plus_eq _ l0, elem_vector _ hi]
          ring
        refine ⟨⟨rfl, rfl, rfl, rfl, e3⟩, rfl, rfl, .inr ⟨d0, da, db, _, rfl, rfl, ⟨⟨⟨f0, l0⟩, ?_, ?_⟩, rfl, hx⟩, ?_⟩⟩
        · rw [← plus_eq _ l0]; exact ⟨fa, la'⟩
        · have : (vector s.state.length fun i => elem s.state i - h * elem d0 i + 2 * h * elem da i) =
              plus (plus s.state (-h) d0) (2 * h) da := by
            rw [plus_eq _ (lda.trans lb0.symm), lb0]
            apply vector_congr
            intro i hi
            rw [plus_eq _ l0, elem_vector _ hi]
            ring
          rw [this]; exact ⟨fb, lb'⟩
        · intro a ha0
          rw [norm_le ha0, hx]
          have m1 := plus_length h lda
          have m2 : (kutta s.state h d0 da db).length = (plus s.state h da).length := (kutta_length _ _ _ _ _).trans m1.symm
          have key : plus (plus s.state h da) (-1) (kutta s.state h d0 da db) =
              vector s.state.length fun i => -(h * (elem d0 i - 2 * elem da i + elem db i) / 6) := by
            rw [plus_eq _ m2, m1]
            apply vector_congr
            intro i hi
            rw [plus_eq _ lda, elem_vector _ hi]
            unfold kutta
            rw [elem_vector _ hi]
            ring
          rw [key]
          simp only [vector, List.map_map, List.mem_map, List.mem_range, Function.comp, forall_exists_index, and_imp,
            forall_apply_eq_imp_iff₂, abs_abs, abs_neg, Within]

/-- What the dense output gets in a step. -/
def Recorded (c : Setup R) (s s' : State R) (h : R) (k1 : List R) : Prop :=
  (s.dense = none ∧ s'.dense = none) ∨
    ∃ d d1, s.dense = some d ∧ s'.dense = some (d ++ [⟨s.time, s.state, k1, s'.time, s'.state, d1⟩]) ∧ 0 < h ∧
      Slope (c.rhs s.k) s'.time s'.state d1

/-- The dense output ends at the time of the context. -/
def UpToDate (s : State R) : Prop := ∀ d p, s.dense = some d → d.getLast? = some p → p.t1 = s.time

theorem record_ok {d d' : List (Piece R)} {p : Piece R} (hl : ∀ l, d.getLast? = some l → l.t1 = p.t0)
    (h : hermite p >>= concatenate d = .ok d') : p.t0 < p.t1 ∧ d' = d ++ [p] := by
  unfold hermite at h
  simp only [bind, Except.bind, throwUnless, pure, Except.pure] at h
  by_cases hc : p.t0 < p.t1 ∧ ¬ p.t1 - p.t0 < epsilonTime
  · refine ⟨hc.1, ?_⟩
    simp only [hc, not_false_eq_true, and_self, decide_true, if_true] at h
    unfold concatenate at h
    cases hd : d.getLast? with
    | none =>
      rw [hd] at h
      rw [List.getLast?_eq_none_iff.1 hd]
      exact (Except.ok.inj h).symm
    | some l =>
      have h0 := hl l hd
      rw [hd] at h
      simp only [bind, Except.bind, throwUnless, pure, Except.pure, h0, sub_self, sub_zero] at h
      split at h
      · cases h
      · exact (Except.ok.inj h).symm
  · simp only [hc, decide_false, Bool.false_eq_true, if_false] at h
    cases h

theorem step_spec (c : Setup R) (s : State R) (h : R) :
    Frame s (step c.f s h).1 ∧ (step c.f s h).1.ideal = s.ideal ∧
      ((∃ e, (step c.f s h).2 = .error e) ∧
          (Broken c (step c.f s h).1 ∨ ∃ k1 k2 k3, Went c s (step c.f s h).1 h k1 k2 k3) ∨
        ∃ k1 k2 k3 err, (step c.f s h).2 = .ok err ∧ Went c s (step c.f s h).1 h k1 k2 k3 ∧
          (∀ a, 0 ≤ a → (norm err ≤ a ↔ Within s.state.length h k1 k2 k3 a)) ∧
          (UpToDate s → Recorded c s (step c.f s h).1 h k1)) := by
  obtain ⟨d1, d2, d3, d4⟩ := doStep_spec c s h
  unfold step
  cases hd : s.dense with
  | none =>
    dsimp only
    refine ⟨d1, d2, ?_⟩
    rcases d4 with ⟨e, q1, q2⟩ | ⟨k1, k2, k3, err, q1, -, q3, q4⟩
    · exact .inl ⟨⟨e, q1⟩, .inl q2⟩
    · exact .inr ⟨k1, k2, k3, err, q1, q3, q4, fun _ => .inl ⟨hd, d3.trans hd⟩⟩
  | some d =>
    dsimp only
    cases h0 : slope c.f s with
    | error e => exact ⟨Frame.refl _, rfl, .inl ⟨⟨e, rfl⟩, .inl ⟨e, h0⟩⟩⟩
    | ok k0 =>
      dsimp only
      generalize doStep c.f s h = r at d1 d2 d3 d4 ⊢
      obtain ⟨s', r⟩ := r
      dsimp only at d1 d2 d3 d4
      rcases d4 with ⟨e, q1, q2⟩ | ⟨k1, k2, k3, err, q1, q2, q3, q4⟩
      · cases q1
        exact ⟨d1, d2, .inl ⟨⟨e, rfl⟩, .inl q2⟩⟩
      · cases q1
        rw [h0] at q2
        cases q2
        dsimp only
        cases h1 : slope c.f s' with
        | error e =>
          dsimp only
          exact ⟨⟨d1.1, d1.2, d1.3, d1.4, d1.5⟩, d2, .inl ⟨⟨e, rfl⟩, .inr ⟨k0, k2, k3, ⟨q3.1, q3.2, q3.3⟩⟩⟩⟩
        | ok kd =>
          dsimp only
          split
          · rename_i e _
            exact ⟨⟨d1.1, d1.2, d1.3, d1.4, d1.5⟩, d2, .inl ⟨⟨e, rfl⟩, .inr ⟨k0, k2, k3, ⟨q3.1, q3.2, q3.3⟩⟩⟩⟩
          · rename_i d' heq
            refine ⟨⟨d1.1, d1.2, d1.3, d1.4, d1.5⟩, d2, .inr ⟨k0, k2, k3, err, rfl, ⟨q3.1, q3.2, q3.3⟩, q4, fun hu => ?_⟩⟩
            have hdr : dropReplaced d s.time = d := by
              unfold dropReplaced
              split
              · rename_i p hp
                rw [if_neg]
                rw [hu d p hd hp]
                exact fun hh => absurd hh.1 (lt_irrefl _)
              · rfl
            rw [hdr] at heq
            obtain ⟨g1, g2⟩ := record_ok (fun l hl => hu d l hd hl) heq
            refine .inr ⟨d, kd, hd, ?_, ?_, ?_⟩
            · rw [g2]
            · dsimp only at g1; rw [q3.time] at g1; linarith
            · have := slope_ok.1 h1
              rw [d1.k] at this
              exact this

/-- The smallest ideal step size. -/
def least (c : Setup R) : R := min (95 / 100 * tol) c.maxStep

/-- A step size that may be taken although its error is too large. -/
def tiny (c : Setup R) (t : R) : R := 1001 / 1000 * tol * max 1 (|t| + c.maxStep)

theorem workingMinimum_after {c : Setup R} {t h : R} (h0 : 0 ≤ h) (h1 : h ≤ c.maxStep) :
    workingMinimum (t + h) ≤ tol * max 1 (|t| + c.maxStep) := by
  apply workingMinimum_le
  calc |t + h| ≤ |t| + |h| := abs_add_le _ _
    _ ≤ _ := by rw [abs_of_nonneg h0]; linarith

/-- What attempts that fail leave behind. -/
def Failed (c : Setup R) (s s' : State R) (hmax : R) : Prop :=
  Broken c s' ∨ (s'.time = s.time ∧ s'.state = s.state) ∨ ∃ h k1 k2 k3, 0 ≤ h ∧ h ≤ c.maxStep ∧ h ≤ hmax ∧ Went c s s' h k1 k2 k3

/-- What attempts that succeed lead to. -/
structure Advanced (c : Setup R) (s s' : State R) (hmax : R) (full : Bool) (h : R) (k1 k2 k3 : List R) : Prop where
  nonneg : 0 ≤ h
  max : h ≤ c.maxStep
  le : h ≤ hmax
  went : Went c s s' h k1 k2 k3
  full : full = decide (h = hmax)
  small : Within s.state.length h k1 k2 k3 s.accuracy ∨ h ≤ tiny c s.time
  recorded : UpToDate s → Recorded c s s' h k1

theorem within_zero (n : Nat) (k1 k2 k3 : List R) {a : R} (ha : 0 ≤ a) : Within n 0 k1 k2 k3 a := by
  intro i _; simp [ha]

theorem attempts_spec (c : Setup R) (hroot : RootOk c.root) (hmax : R) (h0 : 0 ≤ hmax) (hms : 0 ≤ c.maxStep) :
    ∀ (n : Nat) (s : State R) (attempt : R) (atMin : Bool), 0 ≤ s.accuracy → 0 ≤ attempt →
    (atMin = true → tol ≤ attempt ∧ attempt ≤ tol * max 1 (|s.time| + c.maxStep)) →
    Frame s (attempts c hmax n s attempt atMin).1 ∧
      ((attempts c hmax n s attempt atMin).1.ideal = s.ideal ∨
        ∃ i, (attempts c hmax n s attempt atMin).1.ideal = some i ∧ least c ≤ i) ∧
      (∀ e, (attempts c hmax n s attempt atMin).2 = .error e → Failed c s (attempts c hmax n s attempt atMin).1 hmax) ∧
      (∀ full, (attempts c hmax n s attempt atMin).2 = .ok full →
        ∃ h k1 k2 k3, Advanced c s (attempts c hmax n s attempt atMin).1 hmax full h k1 k2 k3)
  | 0, s, attempt, atMin, ha, hat, hmin =>
    ⟨Frame.refl _, .inl rfl, fun _ _ => .inr (.inl ⟨rfl, rfl⟩), fun _ h => by cases h⟩
  | n + 1, s, attempt, atMin, ha, hat, hmin => by
    have hh0 := stepSize_nonneg hms h0 hat
    obtain ⟨hh1, hh2, hh3⟩ := stepSize_le (maxStep := c.maxStep) h0 hat
    obtain ⟨g1, g2, g3⟩ := stepSize_ge (maxStep := c.maxStep) (hmax := hmax) hat
    unfold attempts
    dsimp only
    generalize stepSize c.maxStep hmax attempt = h at hh0 hh1 hh2 hh3 g1 g2 g3 ⊢
    obtain ⟨s1, s2, s3⟩ := step_spec c s h
    generalize step c.f s h = r at s1 s2 s3 ⊢
    obtain ⟨s', r⟩ := r
    dsimp only at s1 s2 s3 ⊢
    rcases s3 with ⟨⟨e, rfl⟩, q⟩ | ⟨k1, k2, k3, err, rfl, w, hn, hrec⟩
    · dsimp only
      refine ⟨s1, .inl s2, fun _ _ => ?_, fun _ hf => by cases hf⟩
      rcases q with q | ⟨k1, k2, k3, w⟩
      · exact .inl q
      · exact .inr (.inr ⟨h, k1, k2, k3, hh0, hh1, hh2, w⟩)
    · dsimp only
      have hcalc : calcAdjusted c.root s'.accuracy c.maxStep s'.time (norm err) h atMin =
          calcAdjusted c.root s.accuracy c.maxStep (s.time + h) (norm err) h atMin := by rw [s1.accuracy, w.time]
      rw [hcalc]
      have hw := workingMinimum_after (c := c) (t := s.time) hh0 hh1
      have sf : ∀ i, Frame s { s' with ideal := i } := fun i => ⟨s1.1, s1.2, s1.3, s1.4, s1.5⟩
      by_cases hsmall : norm err ≤ s.accuracy
      · obtain ⟨next, b, e1, e2, e3, e4⟩ :=
          calcAdjusted_small (root := c.root) (t := s.time + h) atMin hh0 hh1 hsmall
        rw [e1]
        dsimp only
        refine ⟨sf _, ?_, fun _ hf => (by cases hf), fun full hf => ?_⟩
        · cases hlim : limited hmax attempt
          · right
            refine ⟨next, rfl, ?_⟩
            rcases e2 with ⟨e2, e2'⟩ | e2
            · refine le_trans ?_ ((g3 hlim).trans e3)
              exact min_le_min (by have := (hmin e2').1; linarith) (le_refl _)
            · refine (min_le_left _ _).trans (le_trans ?_ e2)
              have := tol_le_workingMinimum (s.time + h)
              have := tol_pos (R := R)
              linarith
          · left; exact s2
        · exact ⟨h, k1, k2, k3, hh0, hh1, hh2, ⟨w.1, w.2, w.3⟩, (Except.ok.inj hf).symm, .inl ((hn _ ha).1 hsmall), hrec⟩
      · have hbig := not_le.1 hsmall
        have hpos : 0 < h := by
          rcases hh0.eq_or_lt with hz | hz
          · exfalso
            exact hsmall ((hn _ ha).2 (hz ▸ within_zero _ _ _ _ ha))
          · exact hz
        obtain ⟨l1, l2⟩ := calcAdjusted_large hroot (t := s.time + h) (atMin := atMin) ha hh0 hh1 hbig hpos
        cases hb : atMin
        · rw [hb] at l2
          rcases l2 rfl with ⟨l2, -⟩ | ⟨next, l2, l3, l4⟩
          · rw [l2]
            dsimp only
            exact ⟨s1, .inl s2, fun _ _ => .inr (.inr ⟨h, k1, k2, k3, hh0, hh1, hh2, w⟩), fun _ hf => by cases hf⟩
          · rw [l2]
            dsimp only
            cases hd : dropSegment s'.dense with
            | error e =>
              dsimp only
              exact ⟨⟨s1.1, s1.2, s1.3, s1.4, rfl⟩, .inl s2, fun _ _ => .inr (.inl ⟨rfl, rfl⟩), fun _ hf => by cases hf⟩
            | ok d =>
              dsimp only
              have hnp : tol ≤ next := (tol_le_workingMinimum _).trans l4
              obtain ⟨k4, k5, k6, k7⟩ := attempts_spec c hroot hmax h0 hms n
                { s' with time := s.time, state := s.state, dense := d } next (decide (next = workingMinimum (s.time + h)))
                (by dsimp only; rw [s1.accuracy]; exact ha) (tol_pos.le.trans hnp) (fun hmm => by
                  simp only [decide_eq_true_eq] at hmm
                  exact ⟨hnp, by rw [hmm]; exact hw⟩)
              have wt : ∀ {s'' h' j1 j2 j3}, Went c { s' with time := s.time, state := s.state, dense := d } s'' h' j1 j2 j3 →
                  Went c s s'' h' j1 j2 j3 := fun h => ⟨by rw [← s1.k]; exact h.1, h.2, h.3⟩
              refine ⟨⟨k4.k.trans s1.k, k4.current.trans s1.current, k4.initialized.trans s1.initialized,
                k4.accuracy.trans s1.accuracy, k4.len⟩, k5.imp (·.trans s2) id, fun e he => ?_, fun full hf => ?_⟩
              · exact (k6 e he).imp id (Or.imp id fun ⟨h', j1, j2, j3, a1, a2, a3, a4⟩ => ⟨h', j1, j2, j3, a1, a2, a3, wt a4⟩)
              · obtain ⟨h', j1, j2, j3, a1, a2, a3, a4, a5, a6, a7⟩ := k7 full hf
                refine ⟨h', j1, j2, j3, a1, a2, a3, wt a4, a5, a6.imp (fun h => by rw [← s1.accuracy]; exact h) id, fun hu => ?_⟩
                have hr := hrec hu
                have hdd : d = s.dense := by
                  rcases hr with ⟨r1, r2⟩ | ⟨d0, d1, r1, r2, -, -⟩
                  · rw [r2] at hd
                    rw [r1]; exact (Except.ok.inj hd).symm
                  · rw [r2] at hd
                    simp only [dropSegment, List.append_eq_nil_iff, List.cons_ne_self, and_false, if_false, List.dropLast_concat] at hd
                    rw [r1]; exact (Except.ok.inj hd).symm
                subst hdd
                exact (a7 hu).imp id fun ⟨d0, d1, r1, r2, r3, r4⟩ => ⟨d0, d1, r1, r2, r3, by rw [← s1.k]; exact r4⟩
        · rw [hb] at l1
          rw [l1 rfl]
          dsimp only
          refine ⟨sf _, ?_, fun _ hf => (by cases hf), fun full hf => ?_⟩
          · cases hlim : limited hmax attempt
            · right
              refine ⟨h, rfl, ?_⟩
              refine le_trans ?_ (g3 hlim)
              exact min_le_min (by have := (hmin hb).1; linarith) (le_refl _)
            · left; exact s2
          · refine ⟨h, k1, k2, k3, hh0, hh1, hh2, ⟨w.1, w.2, w.3⟩, (Except.ok.inj hf).symm, .inr ?_, hrec⟩
            refine hh3.trans ?_
            unfold tiny
            have := (hmin hb).2
            rw [mul_assoc]
            linarith

end Maliput.Ivp
