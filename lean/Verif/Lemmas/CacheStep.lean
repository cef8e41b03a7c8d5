import Verif.Lemmas.CacheHistory
import Verif.Model.CacheUse
import Verif.Model.Integrator

set_option autoImplicit false
set_option linter.unusedSectionVars false

/-!
A step of the integrator through the cache.
-/
namespace Maliput.Cache

open Maliput.Cache.Spec (Computes Reads Covers Part Declared Layered EvalsOnly)
open Maliput.RouteGraph (Stop)

variable {R κ : Type} [Field R] [LinearOrder R]

/-- The system with a list of declarations, written out. -/
def odeDeclared : System := { newSystem with numeric := [parametersTicket], next := 29 }

theorem odeSystem_eq : odeSystem = .ok odeDeclared := by decide

theorem odeCalc_reads (f : R → R → κ → R) (i t : Nat) (h : Reads (odeCalc f) ((odeCalc f).prog i) t) :
    i = derivativesIndex ∧ (t = zTicket ∨ t = parametersTicket ∨ t = timeTicket) := by
  by_cases hi : i = derivativesIndex
  · refine ⟨hi, ?_⟩
    simp only [odeCalc, if_pos hi] at h
    cases h with
    | here => exact .inl rfl
    | afterRead _ _ _ v h =>
      rcases v with x | k <;> dsimp only at h
      · cases h with
        | here => exact .inr (.inl rfl)
        | afterRead _ _ _ v h =>
          rcases v with x | k <;> dsimp only at h
          · cases h
          · cases h with
            | here => exact .inr (.inr rfl)
            | afterRead _ _ _ v h =>
              rcases v with x | k <;> dsimp only at h <;> cases h
      · cases h
  · simp only [odeCalc, if_neg hi] at h
    cases h

theorem odeCalc_declared (f : R → R → κ → R) : Declared odeDeclared (odeCalc f) := by
  intro i d hd t ht
  obtain ⟨rfl, h⟩ := odeCalc_reads f i t ht
  obtain rfl := Option.some.inj hd
  refine ⟨allSourcesTicket, by decide, ?_⟩
  refine .head (Part.all (t := allSourcesExceptInputPortsTicket) (by decide)) ?_
  rcases h with rfl | rfl | rfl
  · exact .head (Part.exceptInputs (t := xTicket) (by decide)) (.head (Part.x (t := xcTicket) (by decide))
      (.single (Part.xc (by decide))))
  · exact .head (Part.exceptInputs (t := allParametersTicket) (by decide)) (.head (Part.p (t := pnTicket) (by decide))
      (.single (Part.pn (by decide))))
  · exact .single (Part.exceptInputs (by decide))

theorem odeCalc_layered (f : R → R → κ → R) : Layered odeDeclared (odeCalc f) fun _ => 0 := by
  intro i _
  by_cases hi : i = derivativesIndex
  · simp only [odeCalc, if_pos hi]
    intro v
    rcases v with x | k
    · intro v
      rcases v with x | k
      · trivial
      · intro v
        rcases v with x | k <;> trivial
    · trivial
  · simp only [odeCalc, if_neg hi]
    trivial

theorem odeCalc_computes (f : R → R → κ → R) {sources : Nat → R ⊕ κ} {t x : R} {k : κ}
    (ht : sources timeTicket = .inl t) (hx : sources zTicket = .inl x) (hk : sources parametersTicket = .inr k) :
    Computes (odeCalc f) sources ((odeCalc f).prog derivativesIndex) (.inl (f t x k)) := by
  simp only [odeCalc, if_true]
  refine .read _ _ _ ?_
  rw [hx]
  refine .read _ _ _ ?_
  rw [hk]
  refine .read _ _ _ ?_
  rw [ht]
  exact .ret _

theorem evalDerivatives_spec (f : R → R → κ → R) (n : Nat) {c : Context (R ⊕ κ)} (h : Good odeDeclared (odeCalc f) c)
    (hf : c.frozen = false) {t x : R} {k : κ} (ht : c.sources timeTicket = .inl t) (hx : c.sources zTicket = .inl x)
    (hk : c.sources parametersTicket = .inr k) :
    ∃ c', evalDerivatives (odeCalc f) (n + 1) c = .ok (c', f t x k) ∧ Good odeDeclared (odeCalc f) c' ∧ c'.frozen = false ∧
      c'.sources = c.sources ∧ ∃ en, c'.cache derivativesIndex = some en ∧ en.value = .inl (f t x k) := by
  have he := evalEntry_spec (odeCalc f) (n + 1) derivativesIndex c h.fresh
  have hp := (evalEntry_plain (odeCalc_layered f) (n + 1) derivativesIndex c (by decide) (Nat.succ_pos n)
    fun j hj => h.structured.isSome hj).1
  have hc := odeCalc_computes f ht hx hk
  rw [evalDerivatives]
  have hst : ∀ {c' v}, evalEntry (odeCalc f) (n + 1) derivativesIndex c = (c', .ok v) → _ := Evaluated.stored
  generalize evalEntry (odeCalc f) (n + 1) derivativesIndex c = r at he hp hst ⊢
  obtain ⟨c', r⟩ := r
  dsimp only at he hp
  rcases hp with ⟨v, rfl⟩ | rfl
  · obtain rfl := (he.value v rfl).det hc
    obtain ⟨en, h1, _, h2⟩ := hst rfl
    refine ⟨c', rfl, ⟨h.structured.kept he.kept, he.fresh⟩, ?_, he.kept.sources, en, h1, h2⟩
    rw [he.kept.frozen, hf]
  · exact absurd hc (he.throws rfl hf _)

theorem writeTimeAndState_spec (f : R → R → κ → R) {c : Context (R ⊕ κ)} (h : Good odeDeclared (odeCalc f) c) (t x : R) :
    ∃ c', modify .timeAndContinuousState (writeTimeAndState c.sources t x) c = .ok c' ∧ Good odeDeclared (odeCalc f) c' ∧
      c'.frozen = c.frozen ∧ c'.sources = writeTimeAndState c.sources t x := by
  obtain ⟨c', e, h1, hf, _, hs, _⟩ := modify_spec h.structured .timeAndContinuousState (writeTimeAndState c.sources t x)
  refine ⟨c', e, ⟨h1, fresh_modify (odeCalc_declared f) h.structured h.fresh e⟩, hf, ?_⟩
  rw [hs]
  funext a
  split
  · rfl
  · rename_i ha
    simp only [Context.accessed, List.mem_cons, List.not_mem_nil, or_false, not_or] at ha
    rw [writeTimeAndState, Function.update_of_ne ha.2.2.2, Function.update_of_ne ha.1]

theorem noteState_spec (f : R → R → κ → R) {c : Context (R ⊕ κ)} (h : Good odeDeclared (odeCalc f) c) :
    ∃ c', noteChange [qTicket, vTicket, zTicket] c = .ok c' ∧ c'.sources = c.sources ∧
      (∀ x, Good odeDeclared (odeCalc f) { c' with sources := Function.update c'.sources zTicket x }) ∧
      c'.frozen = c.frozen ∧
      (c'.cache derivativesIndex).map Entry.value = (c.cache derivativesIndex).map Entry.value := by
  have hsrc : ∀ t ∈ [qTicket, vTicket, zTicket], odeDeclared.source t := by
    intro t ht
    left
    revert ht
    revert t
    decide
  obtain ⟨c', e, h1, hs, hf, _, _, hx⟩ := note_spec h.structured [qTicket, vTicket, zTicket] fun t ht =>
    h.structured.plain t (hsrc t ht)
  refine ⟨c', e, hs, fun x => ⟨h1.write _, ?_⟩, hf, ?_⟩
  · refine fresh_changed (odeCalc_declared f) h.structured (h1.write _) h.fresh fun i en hen => ?_
    obtain ⟨o, h2, h3⟩ := hx i en hen
    refine ⟨o, h2, fun ho => ?_⟩
    have hno : ¬ (en.outOfDate = true ∨ ∃ t ∈ [qTicket, vTicket, zTicket], Upstream c t en.ticket) := by
      rw [← h3, ho]
      simp
    rw [not_or] at hno
    refine ⟨by simpa using hno.1, fun t ht => ?_⟩
    dsimp only
    rw [Function.update_of_ne, hs]
    rintro rfl
    exact hno.2 ⟨zTicket, by simp, (upstream_known h.structured (source_makes (hsrc _ (by simp)))).mpr ht⟩
  · obtain ⟨en, hen⟩ := Option.isSome_iff_exists.mp (h.structured.isSome (i := derivativesIndex) (by decide))
    obtain ⟨o, h2, _⟩ := hx _ en hen
    rw [hen, h2]
    rfl

/-- A step of the integrator. -/
theorem stepContext_spec (f : R → R → κ → R) (n : Nat) (δ : R) {c : Context (R ⊕ κ)} (h : Good odeDeclared (odeCalc f) c)
    (hf : c.frozen = false) {t x : R} {k : κ} (ht : c.sources timeTicket = .inl t) (hx : c.sources zTicket = .inl x)
    (hk : c.sources parametersTicket = .inr k) :
    ∃ c', stepContext (odeCalc f) (n + 1) δ c = .ok (c', (Ode.rk3 (fun t x => f t x k) t x δ).2) ∧
      Good odeDeclared (odeCalc f) c' ∧ c'.frozen = false ∧
      c'.sources = writeTimeAndState c.sources (t + δ) (Ode.rk3 (fun t x => f t x k) t x δ).1 := by
  have kt : parametersTicket ≠ timeTicket := by decide
  have kz : parametersTicket ≠ zTicket := by decide
  have tz : timeTicket ≠ zTicket := by decide
  have w1 : ∀ (g : Nat → R ⊕ κ) a b, writeTimeAndState g a b timeTicket = .inl a := fun g a b => by
    rw [writeTimeAndState, Function.update_of_ne tz, Function.update_self]
  have w2 : ∀ (g : Nat → R ⊕ κ) a b, writeTimeAndState g a b zTicket = .inl b := fun g a b => by
    rw [writeTimeAndState, Function.update_self]
  have w3 : ∀ (g : Nat → R ⊕ κ) a b, writeTimeAndState g a b parametersTicket = g parametersTicket := fun g a b => by
    rw [writeTimeAndState, Function.update_of_ne kz, Function.update_of_ne kt]
  obtain ⟨c1, e1, g1, f1, s1, _⟩ := evalDerivatives_spec f n h hf ht hx hk
  obtain ⟨c2, e2, g2, f2, s2⟩ := writeTimeAndState_spec f g1 (t + δ / 2) (x + δ / 2 * f t x k)
  rw [s1] at s2
  obtain ⟨c3, e3, g3, f3, s3, _⟩ := evalDerivatives_spec f n g2 (f2.trans f1) (by rw [s2, w1]) (by rw [s2, w2])
    (by rw [s2, w3]; exact hk)
  obtain ⟨c4, e4, g4, f4, s4⟩ := writeTimeAndState_spec f g3 (t + δ)
    (x + -δ * f t x k + 2 * δ * f (t + δ / 2) (x + δ / 2 * f t x k) k)
  rw [s3, s2] at s4
  obtain ⟨c5, e5, g5, f5, s5, en, hen, hv⟩ := evalDerivatives_spec f n g4 (f4.trans f3) (by rw [s4, w1]) (by rw [s4, w2])
    (by rw [s4, w3, w3]; exact hk)
  obtain ⟨c6, e6, s6, g6, f6, hv6⟩ := noteState_spec f g5
  rw [hen, Option.map_some, hv] at hv6
  refine ⟨{ c6 with sources := Function.update c6.sources zTicket (.inl (Ode.rk3 (fun t x => f t x k) t x δ).1) },
    ?_, g6 _, f6.trans f5, ?_⟩
  · rw [stepContext, ht]
    dsimp only
    rw [e1]
    simp only [bind, Except.bind, s1, hx]
    rw [s1] at e2
    rw [e2]
    dsimp only
    rw [e3]
    dsimp only
    rw [e4]
    dsimp only
    rw [e5]
    dsimp only
    rw [e6]
    dsimp only
    rw [hv6]
    rfl
  · dsimp only
    rw [s6, s5, s4]
    funext a
    simp only [writeTimeAndState, Function.update_apply]
    split
    · rfl
    · split <;> rfl

end Maliput.Cache
