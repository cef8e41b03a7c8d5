import Verif.Lemmas.IntegratorCalls
import Verif.Lemmas.PiecewiseHermite
import Verif.Lemmas.PiecewiseJoin

set_option autoImplicit false
set_option linter.unusedSectionVars false

/-! Lemmas for the integrators: dense output. -/
namespace Maliput.Ode

open Maliput Piecewise Spec Piecewise.Spec
open Maliput.RouteGraph (Stop)

variable {R κ : Type} [Field R] [LinearOrder R] [IsStrictOrderedRing R] [DecidableEq κ]
variable {c : Setup R κ} {s s' : State R κ}

theorem consecutive_snoc {α β : Type} (f : α → α → β) (a b : α) : ∀ l : List α,
    consecutive f (l ++ [a] ++ [b]) = consecutive f (l ++ [a]) ++ [f a b]
  | [] => rfl
  | [x] => rfl
  | x :: y :: l => by
    have := consecutive_snoc f a b (y :: l)
    simp only [List.cons_append, consecutive] at this ⊢
    rw [this]

/-- The piecewise cubic polynomial through points with the slopes of the right hand side. -/
def hermite (c : Setup R κ) (k : κ) (l : List (R × R)) : PP R :=
  hermitePP (l.map (·.1)) (l.map (·.2)) (l.map fun p => c.f p.1 p.2 k)

theorem hermite_polynomials (c : Setup R κ) (k : κ) (l : List (R × R)) :
    (hermite c k l).polynomials = consecutive hermiteQ (l.map fun p => (p.1, p.2, c.f p.1 p.2 k)) := by
  unfold hermite hermitePP
  dsimp only
  rw [List.zip_map', List.zip_map']

theorem hermite_breaks (c : Setup R κ) (k : κ) (l : List (R × R)) : (hermite c k l).breaks = l.map (·.1) := rfl

/-- The last piece. -/
def pieceOf (c : Setup R κ) (k : κ) (a b : R × R) : Poly.Polynomial R :=
  hermiteQ (a.1, a.2, c.f a.1 a.2 k) (b.1, b.2, c.f b.1 b.2 k)

theorem hermite_snoc (c : Setup R κ) (k : κ) (l : List (R × R)) (a b : R × R) :
    hermite c k (l ++ [a] ++ [b]) =
      ⟨(l ++ [a] ++ [b]).map (·.1), (hermite c k (l ++ [a])).polynomials ++ [pieceOf c k a b]⟩ := by
  have h := hermite_polynomials c k (l ++ [a] ++ [b])
  rw [List.map_append, List.map_append, List.map_singleton, List.map_singleton, consecutive_snoc] at h
  rw [hermite_polynomials]
  generalize hq : hermite c k (l ++ [a] ++ [b]) = q at h ⊢
  have hb : q.breaks = (l ++ [a] ++ [b]).map (·.1) := by rw [← hq]; rfl
  cases q
  dsimp only at h hb
  rw [h, hb, List.map_append (l₁ := l), List.map_singleton]; rfl

theorem hermite_valid (c : Setup R κ) (k : κ) {l : List (R × R)} (h2 : 2 ≤ l.length) (ha : Apart (l.map (·.1))) :
    Valid (hermite c k l) := hermitePP_valid (by simp) (by simp) (by simpa using h2) ha

/-- The dense output after steps that visit the points. -/
def Dense (c : Setup R κ) (k : κ) (l : List (R × R)) (d : PP R) : Prop :=
  Apart (l.map (·.1)) ∧
    (l.length = 1 ∧ d.polynomials = [] ∧ d.breaks.length ≤ 1 ∨ 2 ≤ l.length ∧ d = hermite c k l)

theorem apart_snoc {l : List (R × R)} {a b : R × R} (h : Apart ((l ++ [a]).map (·.1))) (he : epsilonTime ≤ b.1 - a.1) :
    Apart ((l ++ [a] ++ [b]).map (·.1)) := by
  rw [List.map_append]
  unfold Apart
  rw [List.isChain_append]
  refine ⟨h, List.isChain_singleton _, fun x hx y hy => ?_⟩
  simp at hx hy
  rw [← hx, ← hy]; exact he

theorem last_hermite (c : Setup R κ) (k : κ) (l : List (R × R)) (a : R × R) : last (hermite c k (l ++ [a])) = a.1 := by
  unfold last
  rw [hermite_breaks]
  simp

theorem pair_hermite (c : Setup R κ) (k : κ) (a b : R × R) (he : epsilonTime ≤ b.1 - a.1) :
    cubicHermite [a.1, b.1] [a.2, b.2] [c.f a.1 a.2 k, c.f b.1 b.2 k] = .ok ⟨[a.1, b.1], [pieceOf c k a b]⟩ := by
  have := cubicHermite_eq (ts := [a.1, b.1]) (ys := [a.2, b.2]) (ds := [c.f a.1 a.2 k, c.f b.1 b.2 k]) rfl rfl (by simp)
    (by simpa [Apart] using he)
  rw [this]; rfl

theorem pair_hermite_error (c : Setup R κ) (k : κ) (a b : R × R) (he : b.1 - a.1 < epsilonTime) :
    cubicHermite [a.1, b.1] [a.2, b.2] [c.f a.1 a.2 k, c.f b.1 b.2 k] = .error .throws := by
  unfold cubicHermite
  rw [checkInput_error (by simp [Apart]; exact he)]; rfl

theorem dropReplaced_eq {k : κ} {l : List (R × R)} {a : R × R} {d : PP R} (hd : Dense c k (l ++ [a]) d) :
    dropReplaced d a.1 = .ok d := by
  unfold dropReplaced
  rcases hd with ⟨ha, ⟨-, -, h⟩ | ⟨h2, rfl⟩⟩
  · rw [if_neg (by omega)]; rfl
  · have hv := hermite_valid c k h2 ha
    have hlen : (hermite c k (l ++ [a])).breaks.length = (l ++ [a]).length := by rw [hermite_breaks, List.length_map]
    rw [if_pos (by omega), hv.endTime, last_hermite]
    rw [nth_ok (by omega)]
    simp [bind, Except.bind, pure, Except.pure]

theorem concatenate_dense {k : κ} {l : List (R × R)} {a b : R × R} {d : PP R} (hd : Dense c k (l ++ [a]) d)
    (he : epsilonTime ≤ b.1 - a.1) :
    d.concatenate ⟨[a.1, b.1], [pieceOf c k a b]⟩ = .ok (hermite c k (l ++ [a] ++ [b])) := by
  rw [hermite_snoc]
  rcases hd with ⟨ha, ⟨h1, h, -⟩ | ⟨h2, rfl⟩⟩
  · have hl : l = [] := by simpa using h1
    subst hl
    unfold PP.concatenate
    rw [if_neg (by simp [h])]
    have : (hermite c k ([] ++ [a])).polynomials = [] := by rw [hermite_polynomials]; rfl
    rw [this]; rfl
  · have hv := hermite_valid c k h2 ha
    have hq : Valid (⟨[a.1, b.1], [pieceOf c k a b]⟩ : PP R) := by
      refine ⟨rfl, by simp, ?_, ?_⟩
      · have := epsilonTime_pos (R := R)
        simp; linarith
      · simp [pieceOf]; rfl
    have hf : first (⟨[a.1, b.1], [pieceOf c k a b]⟩ : PP R) = a.1 := rfl
    rw [concatenate_eq hv hq, last_hermite, hf, sub_self, abs_zero, if_pos]
    · simp [hermite_breaks]
    · exact mul_pos (lt_of_lt_of_le one_pos (le_max_right _ _)) epsilonTime_pos

theorem removeFinal_dense {k : κ} {l : List (R × R)} {a b : R × R} (ha : Apart ((l ++ [a]).map (·.1))) :
    ∃ d, (hermite c k (l ++ [a] ++ [b])).removeFinal = .ok d ∧ Dense c k (l ++ [a]) d := by
  rw [hermite_snoc]
  unfold PP.removeFinal
  rw [if_neg (by simp)]
  refine ⟨_, rfl, ha, ?_⟩
  simp only [List.map_append, List.map_singleton, List.dropLast_concat]
  cases l with
  | nil =>
    left
    refine ⟨rfl, ?_, by simp⟩
    rw [hermite_polynomials]; rfl
  | cons x l =>
    right
    refine ⟨by simp, ?_⟩
    have : ∀ p : PP R, p = ⟨p.breaks, p.polynomials⟩ := fun p => rfl
    rw [this (hermite c k (x :: l ++ [a])), hermite_breaks, List.map_append, List.map_singleton]

/-- A step with dense output. -/
theorem step_dense {l : List (R × R)} {d : PP R} (hd : s.dense = some d) (hD : Dense c s.k (l ++ [(s.time, s.state)]) d) (h : R) :
    (h < epsilonTime → (step c.f s h).2 = .error .throws) ∧
    (epsilonTime ≤ h → (step c.f s h).2 = .ok (errorEstimate (c.rhs s.k) s.time s.state h) ∧
      (step c.f s h).1.dense =
        some (hermite c s.k (l ++ [(s.time, s.state)] ++ [(s.time + h, kutta (c.rhs s.k) s.time s.state h)]))) := by
  have e1 := rk3_fst (c.rhs s.k) s.time s.state h
  have e2 := rk3_snd (c.rhs s.k) s.time s.state h
  have hdr := dropReplaced_eq hD
  dsimp only at hdr
  unfold step
  dsimp only
  rw [hd]
  dsimp only
  rw [hdr]
  dsimp only
  unfold appendStep doStep
  dsimp only
  rw [show (fun t x => c.f t x s.k) = c.rhs s.k from rfl, e1, e2]
  constructor
  · intro he
    have := pair_hermite_error c s.k (s.time, s.state) (s.time + h, kutta (c.rhs s.k) s.time s.state h) (by
      dsimp only; linarith)
    dsimp only at this
    rw [this]; rfl
  · intro he
    have he' : epsilonTime ≤ (s.time + h, kutta (c.rhs s.k) s.time s.state h).1 - (s.time, s.state).1 := by
      dsimp only; linarith
    have := pair_hermite c s.k (s.time, s.state) (s.time + h, kutta (c.rhs s.k) s.time s.state h) he'
    have hc := concatenate_dense hD he'
    dsimp only at this hc
    rw [this]
    simp only [bind, Except.bind]
    rw [hc]
    exact ⟨rfl, rfl⟩

theorem epsilonTime_le_tol : (epsilonTime : R) ≤ 95 / 100 * tol := by unfold epsilonTime tol; norm_num

theorem attempts_dense (c : Setup R κ) (hroot : RootOk c.root) (hmax : R) (h0 : 0 ≤ hmax) (hms : 0 ≤ c.maxStep) (l : List (R × R)) :
    ∀ (n : Nat) (s : State R κ) (attempt : R) (atMin : Bool) (d : PP R), 0 ≤ s.accuracy → 0 ≤ attempt → s.dense = some d →
    Dense c s.k (l ++ [(s.time, s.state)]) d →
    (∀ full, (attempts c hmax n s attempt atMin).2 = .ok full → ∃ h, epsilonTime ≤ h ∧
      (attempts c hmax n s attempt atMin).1.time = s.time + h ∧ (attempts c hmax n s attempt atMin).1.dense =
        some (hermite c s.k (l ++ [(s.time, s.state)] ++ [(s.time + h, kutta (c.rhs s.k) s.time s.state h)]))) ∧
    (∀ a b, s.accuracy = min c.accuracy (1 / 10) → Tame c s.k a b → a ≤ s.time → s.time + hmax ≤ b → epsilonTime ≤ hmax →
      epsilonTime ≤ c.maxStep → epsilonTime ≤ 95 / 100 * attempt →
      ∀ e, (attempts c hmax n s attempt atMin).2 ≠ .error (.err e))
  | 0, s, attempt, atMin, d, ha, hat, hd, hD => ⟨by simp [attempts], by simp [attempts]⟩
  | n + 1, s, attempt, atMin, d, ha, hat, hd, hD => by
    have hh0 := stepSize_nonneg hms h0 hat
    obtain ⟨hh1, hh2, hh3⟩ := stepSize_le (maxStep := c.maxStep) h0 hat
    obtain ⟨g1, -, -⟩ := stepSize_ge (maxStep := c.maxStep) (hmax := hmax) hat
    unfold attempts
    dsimp only
    generalize stepSize c.maxStep hmax attempt = h at hh0 hh1 hh2 hh3 g1 ⊢
    obtain ⟨s1, -, s3, s4, -, -⟩ := step_spec c s h
    obtain ⟨t1, t2⟩ := step_dense hd hD h
    generalize step c.f s h = r at s1 s3 s4 t1 t2 ⊢
    obtain ⟨s', r⟩ := r
    dsimp only at s1 s3 s4 t1 t2 ⊢
    rcases lt_or_ge h epsilonTime with hlt | hge
    · have := t1 hlt
      subst this
      refine ⟨fun full hf => (by cases hf), fun a b _ _ _ _ q1 q2 q3 => ?_⟩
      exact absurd (le_trans (le_min (le_min q1 q3) q2) g1) (not_le.2 hlt)
    · obtain ⟨u1, u2⟩ := t2 hge
      subst u1
      dsimp only
      have ha' : 0 ≤ s'.accuracy := by rw [s1.accuracy]; exact ha
      by_cases hsmall : errorEstimate (c.rhs s.k) s.time s.state h ≤ s'.accuracy
      · obtain ⟨next, b, e1, -⟩ := calcAdjusted_small (root := c.root) (t := s'.time) atMin hh0 hh1 hsmall
        rw [e1]; exact ⟨fun _ _ => ⟨h, hge, s3, u2⟩, by simp⟩
      · have hbig := not_le.1 hsmall
        have hpos : 0 < h := epsilonTime_pos.trans_le hge
        obtain ⟨l1, l2⟩ := calcAdjusted_large hroot (t := s'.time) (atMin := atMin) ha' hh0 hh1 hbig hpos
        cases hb : atMin
        · rw [hb] at l2
          rcases l2 rfl with ⟨l2, l3⟩ | ⟨next, l2, l3, l4⟩
          · rw [l2]
            refine ⟨fun full hf => (by cases hf), fun a b hacc htame hsa hsb _ _ _ => ?_⟩
            exfalso
            rw [s1.accuracy, hacc] at hsmall
            rw [s3] at l3
            exact hsmall (htame s.time s.state h hsa (by linarith) hpos l3)
          · rw [l2]
            dsimp only
            obtain ⟨d', r1, r2⟩ := removeFinal_dense (c := c) (k := s.k) (b := (s.time + h, kutta (c.rhs s.k) s.time s.state h)) hD.1
            have hds : dropSegment s'.dense = .ok (some d') := by rw [u2]; unfold dropSegment; dsimp only; rw [r1]; rfl
            rw [hds]
            dsimp only
            have hnp : tol ≤ next := (tol_le_workingMinimum _).trans l4
            obtain ⟨v1, v2⟩ := attempts_dense c hroot hmax h0 hms l n
              { s' with time := s.time, state := s.state, dense := some d' } next (decide (next = workingMinimum s'.time)) d'
              ha' (tol_pos.le.trans hnp) rfl (by dsimp only; rw [s1.k]; exact r2)
            dsimp only at v1 v2
            rw [← s1.k]
            refine ⟨v1, fun a b hacc htame hsa hsb q1 q2 q3 => v2 a b (s1.accuracy.trans hacc) htame hsa hsb q1 q2 ?_⟩
            have := epsilonTime_le_tol (R := R)
            linarith
        · rw [hb] at l1
          rw [l1 rfl]; exact ⟨fun _ _ => ⟨h, hge, s3, u2⟩, by simp⟩

/-- The points that the steps of a run with dense output have visited. -/
structure Run (c : Setup R κ) (s : State R κ) (l : List (R × R)) : Prop where
  steps : Steps (c.rhs s.k) (Accurate (c.rhs s.k) c.maxStep (min c.accuracy (1 / 10))) c.t0 c.x0 l
  last : l.getLast? = some (s.time, s.state)
  dense : ∃ d, s.dense = some d ∧ Dense c s.k l d

theorem integrateNoFurther_dense (hu : Usable c) (n : Nat) (s : State R κ) (hi : Inv c s) (hin : s.initialized = true)
    (boundary : R) (hb : s.time ≤ boundary) (l : List (R × R)) (hrun : Run c s l) :
    ((integrateNoFurther c n s boundary).2 = .ok () → ∃ l', Run c (integrateNoFurther c n s boundary).1 l' ∧ 2 ≤ l'.length) ∧
    (∀ a b, Tame c s.k a b → a ≤ s.time → boundary ≤ b → epsilonTime ≤ boundary - s.time → epsilonTime ≤ c.maxStep →
      epsilonTime ≤ 95 / 100 * (s.ideal.getD c.initialStep) →
      ∀ e, (integrateNoFurther c n s boundary).2 ≠ .error (.err e)) := by
  have hms := hi.maxStep_nonneg hin
  obtain ⟨d, hd, hD⟩ := hrun.dense
  obtain ⟨l0, rfl⟩ : ∃ l0, l = l0 ++ [(s.time, s.state)] := by
    obtain ⟨l0, h⟩ := List.getLast?_eq_some_iff.1 hrun.last
    exact ⟨l0, h⟩
  have ht : (if s.time + c.maxStep < boundary then s.time + c.maxStep else boundary) - s.time =
      min c.maxStep (boundary - s.time) := by
    split
    · rename_i h; rw [min_eq_left (by linarith)]; ring
    · rename_i h; rw [min_eq_right (by linarith)]
  have ht' : (if s.time + c.maxStep < boundary then s.time + c.maxStep else boundary) =
      s.time + min c.maxStep (boundary - s.time) := by rw [← ht]; ring
  have hm0 : 0 ≤ min c.maxStep (boundary - s.time) := le_min hms (by linarith)
  unfold integrateNoFurther stepOnce
  rw [if_neg (by rw [hin]; simp), if_neg (by linarith)]
  dsimp only
  rw [ht, ht', if_neg (not_lt.2 hm0)]
  obtain ⟨h, k1, k2, k3, k4, k5, k6, k7, k8⟩ := attempts_spec c hu.root _ hm0 hms n s (s.ideal.getD c.initialStep) false
    (hi.accuracy_nonneg hu hin) (hi.attempt_nonneg hin) (by simp)
  obtain ⟨w1, w2⟩ := attempts_dense c hu.root _ hm0 hms l0 n s (s.ideal.getD c.initialStep) false d
    (hi.accuracy_nonneg hu hin) (hi.attempt_nonneg hin) hd hD
  generalize attempts c (min c.maxStep (boundary - s.time)) n s (s.ideal.getD c.initialStep) false = r at k4 k5 k6 k7 k8 w1 w2 ⊢
  obtain ⟨s', r⟩ := r
  dsimp only at k4 k5 k6 k7 k8 w1 w2
  cases r with
  | error e =>
    refine ⟨fun hf => (by cases hf), fun a b q1 q2 q3 q4 q5 q6 e' he => ?_⟩
    have : e = .err e' := by simpa using he
    subst this
    refine w2 a b (hi.init hin).1 q1 q2 ?_ (le_min q5 q4) q5 q6 e' rfl
    have := min_le_right c.maxStep (boundary - s.time)
    linarith
  | ok full =>
    dsimp only
    obtain ⟨m1, m2, -, -⟩ := k8 full rfl
    obtain ⟨h', x1, x2, x3⟩ := w1 full rfl
    have hh : h' = h := by rw [k5] at x2; linarith
    subst hh
    have hs : (if full = true ∨ s'.time ≥ s.time + min c.maxStep (boundary - s.time) then
        { s' with time := s.time + min c.maxStep (boundary - s.time) } else s') = s' := by
      split
      · rename_i hc
        have : h' = min c.maxStep (boundary - s.time) := by
          rcases hc with hc | hc
          · rw [m1] at hc; simpa using hc
          · rw [k5] at hc; linarith
        rw [← this, ← k5]
      · rfl
    rw [hs]
    have hpos := epsilonTime_pos.trans_le x1
    refine ⟨fun _ => ⟨l0 ++ [(s.time, s.state)] ++ [(s.time + h', kutta (c.rhs s.k) s.time s.state h')],
      ⟨?_, ?_, _, x3, ?_⟩, ?_⟩, fun a b _ _ _ _ _ _ e he => (by cases he)⟩
    · rw [show s'.k = s.k from k4.k]
      refine hrun.steps.snoc hrun.last ⟨⟨hpos, k2⟩, ?_⟩
      rw [← (hi.init hin).1]; exact m2
    · rw [k5, k6]; simp
    · rw [show s'.k = s.k from k4.k]
      exact ⟨apart_snoc hD.1 (by dsimp only; linarith), .inr ⟨by simp, rfl⟩⟩
    · simp

theorem integrateTo_dense (hu : Usable c) (n : Nat) (tf : R) : ∀ (m : Nat) (s : State R κ), Inv c s → s.initialized = true →
    s.time ≤ tf → ∀ l, Run c s l →
    ((integrateTo c n tf m s).2 = .ok () → ∃ l', Run c (integrateTo c n tf m s).1 l' ∧ 2 ≤ l'.length) ∧
    (∀ e, (integrateTo c n tf m s).2 = .error (.err e) → Tame c s.k c.t0 tf → epsilonTime ≤ 95 / 100 * c.maxStep →
      epsilonTime ≤ 95 / 100 * (s.ideal.getD c.initialStep) →
      ∃ t x, Reaches (c.rhs s.k) (Accurate (c.rhs s.k) c.maxStep (min c.accuracy (1 / 10))) c.t0 c.x0 t x ∧ t ≤ tf ∧ tf - t < epsilonTime)
  | 0, s, hi, hin, hle, l, hrun => ⟨by simp [integrateTo], by simp [integrateTo]⟩
  | m + 1, s, hi, hin, hle, l, hrun => by
    have hms := hi.maxStep_nonneg hin
    obtain ⟨h, hm, -⟩ := integrateTo_step hu n tf s hi hin hle
    obtain ⟨q1, q2⟩ := integrateNoFurther_dense hu n s hi hin (min tf (s.time + c.maxStep)) (le_min hle (by linarith)) l hrun
    unfold integrateTo
    generalize integrateNoFurther c n s (min tf (s.time + c.maxStep)) = r at hm q1 q2 ⊢
    obtain ⟨s', r⟩ := r
    dsimp only at hm q1 q2
    cases r with
    | error e =>
      refine ⟨fun hf => (by cases hf), fun e' he ht hes hei => ?_⟩
      have hee : e = .err e' := by simpa using he
      subst hee
      refine ⟨s.time, s.state, ⟨l, hrun.steps, hrun.last⟩, hle, ?_⟩
      by_contra hcon
      refine q2 c.t0 tf ht hi.reach.le (min_le_left _ _) ?_ (by linarith) hei e' rfl
      rcases min_choice tf (s.time + c.maxStep) with h' | h' <;> rw [h']
      · exact not_lt.1 hcon
      · linarith
    | ok u =>
      dsimp only
      obtain ⟨l', hl', hl2⟩ := q1 rfl
      split
      · rename_i hlt
        obtain ⟨w1, w2⟩ := integrateTo_dense hu n tf m s' (hi.moved hm) (hm.frame.initialized.trans hin) hlt.le l' hl'
        refine ⟨w1, fun e he ht hes hei => ?_⟩
        have hk := hm.frame.k
        rw [hk] at w2
        refine w2 e he ht hes ?_
        rcases hm.ideal with h' | ⟨i, h', h'', -⟩
        · rw [h']; exact hei
        · rw [h']
          show epsilonTime ≤ 95 / 100 * i
          have : min (95 / 100 * tol) c.maxStep ≤ i := h''
          have h1 : epsilonTime ≤ 95 / 100 * (95 / 100 * (tol : R)) := by unfold epsilonTime tol; norm_num
          rcases min_le_iff.1 this with h2 | h2 <;> linarith
      · exact ⟨fun _ => ⟨l', hl', hl2⟩, fun e he => (by cases he)⟩

/-- The dense output of a run that returned. -/
theorem denseSolve_dense (hu : Usable c) (n m : Nat) (tf : R) (k : κ) (s : State R κ) (d : PP R)
    (h : (denseSolve c n m tf k s).2 = .ok d) :
    ∃ l, Steps (c.rhs k) (Accurate (c.rhs k) c.maxStep (min c.accuracy (1 / 10))) c.t0 c.x0 l ∧
      l.getLast? = some (tf, (denseSolve c n m tf k s).1.state) ∧ 2 ≤ l.length ∧ Apart (l.map (·.1)) ∧ d = hermite c k l := by
  obtain ⟨h0, hv⟩ : c.t0 ≤ tf ∧ Accepted c := by
    constructor
    · by_contra h0
      unfold denseSolve at h
      rw [if_pos (not_le.1 h0)] at h
      cases h
    · by_contra hv
      unfold denseSolve at h
      rw [setUp_invalid hv] at h
      split at h <;> cases h
  obtain ⟨s2, a1, a2, a3, a4, a5, a6, a7, a8, a9⟩ := denseSolve_eq hv h0 k s
  rw [a9] at h ⊢
  have hrun : Run c s2 [(c.t0, c.x0)] := by
    refine ⟨⟨rfl, List.isChain_singleton _⟩, by rw [a4, a5]; rfl, _, a7, List.isChain_singleton _, .inl ⟨rfl, rfl, by simp [empty]⟩⟩
  obtain ⟨w1, -⟩ := integrateTo_dense hu n tf m s2 a1 a2 (a4.trans_le h0) _ hrun
  obtain ⟨-, j2, -, -, j5⟩ := integrateTo_spec hu n tf m s2 a1 a2 (a4.trans_le h0)
  generalize integrateTo c n tf m s2 = r at h w1 j2 j5 ⊢
  obtain ⟨s3, r⟩ := r
  cases r with
  | error e => cases h
  | ok u =>
    obtain ⟨l, hl, hl2⟩ := w1 rfl
    dsimp only at h hl j2 j5 ⊢
    obtain ⟨d', e1, e2, e3⟩ := hl.dense
    rw [e1] at h ⊢
    dsimp only at h ⊢
    cases h
    have hk : s3.k = k := j2.k.trans a3
    have hst := hl.steps
    have hla := hl.last
    rw [hk] at hst e3
    rw [(j5 rfl).1] at hla
    refine ⟨l, hst, hla, hl2, e2, ?_⟩
    rcases e3 with ⟨h1, -⟩ | ⟨-, h1⟩
    · omega
    · exact h1

/-- When making the dense output throws. -/
theorem denseSolve_throws (hu : Usable c) (hv : Accepted c) (n m : Nat) {tf : R} (h0 : c.t0 ≤ tf) (k : κ) (s : State R κ) (e : Err)
    (h : (denseSolve c n m tf k s).2 = .error (.err e)) (ht : Tame c k c.t0 tf) (he : epsilonTime ≤ 95 / 100 * c.initialStep) :
    ∃ t x, Reaches (c.rhs k) (Accurate (c.rhs k) c.maxStep (min c.accuracy (1 / 10))) c.t0 c.x0 t x ∧ t ≤ tf ∧ tf - t < epsilonTime := by
  obtain ⟨s2, a1, a2, a3, a4, a5, a6, a7, a8, a9⟩ := denseSolve_eq hv h0 k s
  rw [a9] at h
  have hrun : Run c s2 [(c.t0, c.x0)] := by
    refine ⟨⟨rfl, List.isChain_singleton _⟩, by rw [a4, a5]; rfl, _, a7, List.isChain_singleton _, .inl ⟨rfl, rfl, by simp [empty]⟩⟩
  obtain ⟨w1, w2⟩ := integrateTo_dense hu n tf m s2 a1 a2 (a4.trans_le h0) _ hrun
  rw [a3, a6] at w2
  have hv2 := hv.max
  generalize integrateTo c n tf m s2 = r at h w1 w2
  obtain ⟨s3, r⟩ := r
  cases r with
  | error e' =>
    have : e' = .err e := by simpa using h
    subst this
    exact w2 e rfl ht (by linarith) he
  | ok u =>
    obtain ⟨l, hl, -⟩ := w1 rfl
    obtain ⟨d', e1, -⟩ := hl.dense
    dsimp only at h e1
    rw [e1] at h
    cases h

theorem denseTimes_eq {d : PP R} (hv : Valid d) : denseTimes d = .ok (first d, last d) := by
  unfold denseTimes
  rw [hv.startTime, hv.endTime]
  have : d.polynomials ≠ [] := by intro h; have := hv.segments; rw [h] at this; simp at this
  simp [bind, Except.bind, pure, Except.pure, throwUnless, this]

theorem denseEvaluate_eq {d : PP R} (hv : Valid d) (t : R) : denseEvaluate d t =
    if first d ≤ t ∧ t ≤ last d then d.evalDerivative t 0 else .error .throws := by
  unfold denseEvaluate
  rw [denseTimes_eq hv]
  simp only [bind, Except.bind, throwUnless]
  by_cases h : first d ≤ t ∧ t ≤ last d
  · rw [if_pos h, if_pos (by simpa using h)]
    dsimp only
    rw [hv.scalarValue t h.1 h.2, hv.evalDerivative, saturated_of_mem h.1 h.2]
  · rw [if_neg h, if_neg (by simpa using h)]

theorem denseFunction_eq {d : PP R} {p0 p1 tolerance p : R} : denseFunction d p0 p1 tolerance p =
    if p0 ≤ p1 ∧ |max p0 (min p p1) - p| < tolerance then denseEvaluate d (max p0 (min p p1)) else .error .throws := by
  unfold denseFunction saturate throwUnless
  by_cases h : p0 ≤ p1
  · have hs : (if p < p0 then p0 else if p > p1 then p1 else p) = max p0 (min p p1) := by
      split
      · rename_i h1; rw [max_eq_left ((min_le_left _ _).trans h1.le)]
      · split
        · rename_i h1 h2; rw [min_eq_right h2.le, max_eq_right h]
        · rename_i h1 h2; rw [min_eq_left (not_lt.1 h2), max_eq_right (not_lt.1 h1)]
    simp only [h, decide_true, if_true, true_and, bind, Except.bind, pure, Except.pure, hs]
    by_cases h2 : |max p0 (min p p1) - p| < tolerance
    · simp [h2]
    · simp [h2]
  · simp [h, bind, Except.bind]

theorem checkTimes_ok {d : PP R} (hv : Valid d) {p0 p1 epsilon : R} : checkTimes d p0 p1 epsilon = .ok () ↔
    first d ≤ p0 ∧ p1 - epsilon ≤ last d := by
  unfold checkTimes throwUnless
  rw [denseTimes_eq hv]
  by_cases h : first d ≤ p0
  · by_cases h2 : p1 - epsilon ≤ last d <;> simp [bind, Except.bind, h, h2]
  · simp [bind, Except.bind, h]

theorem checkTimes_error {d : PP R} (hv : Valid d) {p0 p1 epsilon : R} (h : ¬ (first d ≤ p0 ∧ p1 - epsilon ≤ last d)) :
    checkTimes d p0 p1 epsilon = .error .throws := by
  unfold checkTimes throwUnless
  rw [denseTimes_eq hv]
  by_cases h1 : first d ≤ p0
  · have h2 : ¬ p1 - epsilon ≤ last d := fun h2 => h ⟨h1, h2⟩
    simp [bind, Except.bind, h1, h2]
  · simp [bind, Except.bind, h1]

end Maliput.Ode
