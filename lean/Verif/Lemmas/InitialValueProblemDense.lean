import Verif.Lemmas.InitialValueProblemRuns

set_option autoImplicit false
set_option linter.unusedSectionVars false

/-! Recording a dense output does not change the steps. -/
namespace Maliput.Ivp

open Maliput
open Maliput.RouteGraph (Stop)
open Maliput.Ode (calcAdjusted limited stepSize)

variable {R : Type} [Field R] [LinearOrder R] [IsStrictOrderedRing R]

/-- The state without a dense output. -/
def plain (s : State R) : State R := { s with dense := none }

theorem slope_plain (f : R → List R → List R → Except Err (List R)) (s : State R) : slope f (plain s) = slope f s := rfl

theorem doStep_plain (f : R → List R → List R → Except Err (List R)) (s : State R) (h : R) :
    doStep f (plain s) h = (plain (doStep f s h).1, (doStep f s h).2) := by
  unfold doStep
  rw [slope_plain]
  cases slope f s with
  | error e => rfl
  | ok d0 =>
    dsimp only
    rw [show ({ plain s with time := (plain s).time + h / 2, state := plus (plain s).state (h / 2) d0 } : State R) =
      plain { s with time := s.time + h / 2, state := plus s.state (h / 2) d0 } from rfl, slope_plain]
    cases slope f { s with time := s.time + h / 2, state := plus s.state (h / 2) d0 } with
    | error e => rfl
    | ok da =>
      dsimp only
      rw [show ({ plain s with time := (plain s).time + h, state := plus (plus (plain s).state (-h) d0) (2 * h) da } : State R) =
        plain { s with time := s.time + h, state := plus (plus s.state (-h) d0) (2 * h) da } from rfl, slope_plain]
      cases slope f { s with time := s.time + h, state := plus (plus s.state (-h) d0) (2 * h) da } with
      | error e => rfl
      | ok db => rfl

theorem step_plain {f : R → List R → List R → Except Err (List R)} {s s' : State R} {h : R} {err : List R}
    (hs : step f s h = (s', .ok err)) : step f (plain s) h = (plain s', .ok err) := by
  have hp : step f (plain s) h = doStep f (plain s) h := rfl
  rw [hp, doStep_plain]
  unfold step at hs
  cases hd : s.dense with
  | none =>
    rw [hd] at hs
    replace hs : doStep f s h = (s', .ok err) := hs
    rw [hs]
  | some d =>
    rw [hd] at hs
    dsimp only at hs
    cases h0 : slope f s with
    | error e => rw [h0] at hs; cases (Prod.mk.inj hs).2
    | ok d0 =>
      rw [h0] at hs
      dsimp only at hs
      rcases hst : doStep f s h with ⟨t, r⟩
      rw [hst] at hs
      cases r with
      | error e => cases (Prod.mk.inj hs).2
      | ok err' =>
        dsimp only at hs
        cases h1 : slope f t with
        | error e => rw [h1] at hs; cases (Prod.mk.inj hs).2
        | ok d1 =>
          rw [h1] at hs
          dsimp only at hs
          split at hs
          · cases (Prod.mk.inj hs).2
          · obtain ⟨e1, e2⟩ := Prod.mk.inj hs
            cases e2
            subst e1
            rfl

variable {c : Setup R}

theorem attempts_plain (hmax : R) : ∀ (n : Nat) (s s' : State R) (attempt : R) (atMin full : Bool),
    attempts c hmax n s attempt atMin = (s', .ok full) → attempts c hmax n (plain s) attempt atMin = (plain s', .ok full)
  | 0, s, s', _, _, _, h => by cases (Prod.mk.inj h).2
  | n + 1, s, s', attempt, atMin, full, h => by
    unfold attempts at h ⊢
    dsimp only at h ⊢
    rcases hst : step c.f s (stepSize c.maxStep hmax attempt) with ⟨t, r⟩
    rw [hst] at h
    cases r with
    | error e => cases (Prod.mk.inj h).2
    | ok err =>
      rw [step_plain hst]
      dsimp only at h ⊢
      rw [show (plain t).accuracy = t.accuracy from rfl, show (plain t).time = t.time from rfl]
      cases hc : calcAdjusted c.root t.accuracy c.maxStep t.time (norm err) (stepSize c.maxStep hmax attempt) atMin with
      | error e => rw [hc] at h; cases (Prod.mk.inj h).2
      | ok r =>
        rw [hc] at h
        obtain ⟨ok, next, atMin'⟩ := r
        cases ok with
        | true =>
          dsimp only at h ⊢
          obtain ⟨e1, e2⟩ := Prod.mk.inj h
          cases e2
          subst e1
          rfl
        | false =>
          dsimp only at h ⊢
          cases hd : dropSegment t.dense with
          | error e => rw [hd] at h; cases (Prod.mk.inj h).2
          | ok d =>
            rw [hd] at h
            exact attempts_plain hmax n _ s' next atMin' full h

theorem integrateNoFurther_plain {n : Nat} {s s' : State R} {boundary : R}
    (h : integrateNoFurther c n s boundary = (s', .ok ())) : integrateNoFurther c n (plain s) boundary = (plain s', .ok ()) := by
  unfold integrateNoFurther at h ⊢
  rw [show (plain s).initialized = s.initialized from rfl, show (plain s).time = s.time from rfl,
    show (plain s).state = s.state from rfl, show (plain s).ideal = s.ideal from rfl]
  split at h
  · cases (Prod.mk.inj h).2
  rename_i h1
  rw [if_neg h1]
  split at h
  · cases (Prod.mk.inj h).2
  rename_i h2
  rw [if_neg h2]
  split at h
  · rename_i h3
    rw [if_pos h3]
    obtain ⟨e1, -⟩ := Prod.mk.inj h
    subst e1
    rfl
  rename_i h3
  rw [if_neg h3]
  dsimp only at h ⊢
  generalize (if s.time + c.maxStep < boundary then s.time + c.maxStep else boundary) = target at h ⊢
  split at h
  · cases (Prod.mk.inj h).2
  rename_i h4
  rw [if_neg h4]
  split at h
  · cases (Prod.mk.inj h).2
  rename_i t full ha
  rw [attempts_plain _ n s t _ _ full ha]
  dsimp only
  obtain ⟨e1, -⟩ := Prod.mk.inj h
  subst e1
  rw [show (plain t).time = t.time from rfl]
  split <;> rfl

theorem integrateTo_plain (n : Nat) (tf : R) : ∀ (m : Nat) (s s' : State R), integrateTo c n tf m s = (s', .ok ()) →
    integrateTo c n tf m (plain s) = (plain s', .ok ())
  | 0, s, s', h => by cases (Prod.mk.inj h).2
  | m + 1, s, s', h => by
    unfold integrateTo at h ⊢
    rw [show (plain s).time = s.time from rfl]
    split at h
    · cases (Prod.mk.inj h).2
    · rename_i t ht
      rw [integrateNoFurther_plain ht]
      dsimp only
      rw [show (plain t).time = t.time from rfl]
      split at h
      · rename_i hlt
        rw [if_pos hlt]
        exact integrateTo_plain n tf m t s' h
      · rename_i hlt
        rw [if_neg hlt]
        obtain ⟨e1, -⟩ := Prod.mk.inj h
        subst e1
        rfl

/-- A dense solution that is given leaves what solving leaves. -/
theorem denseSolve_solve {n m : Nat} {tf : R} {v : Values R} {s : State R} {d : List (Piece R)}
    (h : (denseSolve c n m tf v s).2 = .ok d) :
    solve c n m tf v (fresh c) = ((denseSolve c n m tf v s).1, .ok (denseSolve c n m tf v s).1.state) := by
  unfold denseSolve at h ⊢
  unfold solve
  cases hp : sanitize c.defaults tf v with
  | error e => rw [hp] at h; cases h
  | ok p =>
    obtain ⟨-, h0, hl, -⟩ := sanitize_ok.1 hp
    rw [hp] at h
    dsimp only at h ⊢
    rw [resetIfNecessary_fresh h0, reset_eq c p (fresh c) s]
    rw [if_pos (show (reset c p s).initialized = false from rfl)]
    rcases hst : setUp c (reset c p s) with ⟨t, r⟩
    have htd : t.dense = none := by
      rcases setUp_spec (reset c p s) c with ⟨hh, -⟩ | ⟨hh, -⟩
      · rw [hh] at hst; cases hst; rfl
      · rw [hh] at hst; cases hst; rfl
    rw [hst] at h
    cases r with
    | error e => cases h
    | ok u =>
      dsimp only at h ⊢
      split at h
      · cases h
      · rename_i hne
        rw [if_neg hne]
        rcases hit : integrateTo c n tf m { t with dense := some [] } with ⟨t', r'⟩
        rw [hit] at h
        cases r' with
        | error e => cases h
        | ok u' =>
          have hpl := integrateTo_plain n tf m _ _ hit
          rw [show plain { t with dense := some [] } = t by
            unfold plain; rw [← htd]] at hpl
          rw [hpl]
          dsimp only at h ⊢
          cases hd : t'.dense with
          | none => rw [hd] at h; cases h
          | some d' => rfl

end Maliput.Ivp
