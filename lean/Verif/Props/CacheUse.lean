import Verif.Lemmas.CacheStep
import Verif.Lemmas.CacheFeedthrough
import Verif.Lemmas.CacheTickets
import Verif.Props.Cache
import Mathlib.Algebra.Order.Field.Rat

set_option autoImplicit false

/-!
# Users of cached results (C110, C111, C112)

The steps of the integrator through the cache, the reports of direct feedthrough, and what the predefined tickets stand
for.
-/
namespace Maliput.Props

open Maliput.Cache
open Maliput.Cache.Spec (Computes Reads Covers Part Declared Layered written documented)
open Maliput.RouteGraph (Stop)

/-! ## C110: steps of the integrator through the cache -/

section

variable {R κ : Type} [Field R] [LinearOrder R]

/-- The context of the differential equation holds the time, the state and the parameters. -/
def Holds (c : Context (R ⊕ κ)) (st : Ode.State R κ) : Prop :=
  c.sources timeTicket = .inl st.time ∧ c.sources zTicket = .inl st.state ∧ c.sources parametersTicket = .inr st.k

/-- C110: after every history which leaves the cache usable, any number of steps through the cache, followed by one more,
gives the states and the error estimate of the Runge-Kutta formulas, which evaluate the differential equation anew every
time. -/
theorem steps_refine {s : System} {alloc sources : Nat → R ⊕ κ} {c : Context (R ⊕ κ)} {n m : Nat} {f : R → R → κ → R}
    {ops : List (Op (R ⊕ κ))} {st : Ode.State R κ} (hs : odeSystem = .ok s) (hc : makeContext alloc sources s = .ok c)
    (hf : (history (odeCalc f) m ops c).frozen = false) (hst : Holds (history (odeCalc f) m ops c) st) (steps : List R)
    (h : R) :
    ∃ c1 c2,
      steps.foldlM (fun c h => (stepContext (odeCalc f) (n + 1) h c).map Prod.fst) (history (odeCalc f) m ops c) = .ok c1 ∧
      Holds c1 (steps.foldl (fun st h => (Ode.doStep f st h).1) st) ∧
      stepContext (odeCalc f) (n + 1) h c1 = .ok (c2, (Ode.doStep f (steps.foldl (fun st h => (Ode.doStep f st h).1) st) h).2) ∧
      Holds c2 (Ode.doStep f (steps.foldl (fun st h => (Ode.doStep f st h).1) st) h).1 := by
  rw [odeSystem_eq] at hs
  obtain rfl := Except.ok.inj hs
  have hg := (good_make (odeCalc f) (ds := [.numericParameter]) odeSystem_eq hc).history (odeCalc_declared f) m ops
  generalize history (odeCalc f) m ops c = c at hf hst hg
  have key : ∀ (h : R) {c : Context (R ⊕ κ)} {st : Ode.State R κ}, Good odeDeclared (odeCalc f) c → c.frozen = false →
      Holds c st → ∃ c', stepContext (odeCalc f) (n + 1) h c = .ok (c', (Ode.doStep f st h).2) ∧
        Good odeDeclared (odeCalc f) c' ∧ c'.frozen = false ∧ Holds c' (Ode.doStep f st h).1 := by
    intro h c st hg hf hst
    obtain ⟨c', e, g, f', s'⟩ := stepContext_spec f n h hg hf hst.1 hst.2.1 hst.2.2
    refine ⟨c', e, g, f', ?_⟩
    rw [Holds, s']
    refine ⟨?_, ?_, ?_⟩
    · rw [writeTimeAndState, Function.update_of_ne (by decide), Function.update_self]
      rfl
    · rw [writeTimeAndState, Function.update_self]
      rfl
    · rw [writeTimeAndState, Function.update_of_ne (by decide), Function.update_of_ne (by decide)]
      exact hst.2.2
  induction steps generalizing c st with
  | nil =>
    obtain ⟨c2, e, _, _, h2⟩ := key h hg hf hst
    exact ⟨c, c2, rfl, hst, e, h2⟩
  | cons δ steps ih =>
    obtain ⟨c0, e, g0, f0, h0⟩ := key δ hg hf hst
    obtain ⟨c1, c2, e1, h1, e2, h2⟩ := ih c0 f0 h0 g0
    refine ⟨c1, c2, ?_, h1, e2, h2⟩
    rw [List.foldlM_cons, e]
    exact e1

/-- C110: so do the time derivatives which are evaluated after the steps. -/
theorem derivatives_after_steps {s : System} {alloc sources : Nat → R ⊕ κ} {c c1 : Context (R ⊕ κ)} {n m : Nat}
    {f : R → R → κ → R} {ops : List (Op (R ⊕ κ))} {st : Ode.State R κ} (hs : odeSystem = .ok s)
    (hc : makeContext alloc sources s = .ok c) (hf : (history (odeCalc f) m ops c).frozen = false)
    (hst : Holds (history (odeCalc f) m ops c) st) (steps : List R)
    (h : steps.foldlM (fun c h => (stepContext (odeCalc f) (n + 1) h c).map Prod.fst) (history (odeCalc f) m ops c) = .ok c1) :
    ∃ c2, evalDerivatives (odeCalc f) (n + 1) c1 =
      .ok (c2, f (steps.foldl (fun st h => (Ode.doStep f st h).1) st).time
        (steps.foldl (fun st h => (Ode.doStep f st h).1) st).state st.k) := by
  rw [odeSystem_eq] at hs
  obtain rfl := Except.ok.inj hs
  have hg := (good_make (odeCalc f) (ds := [.numericParameter]) odeSystem_eq hc).history (odeCalc_declared f) m ops
  generalize history (odeCalc f) m ops c = c at hf hst hg h
  induction steps generalizing c st with
  | nil =>
    simp only [List.foldlM_nil, pure, Except.pure, Except.ok.injEq] at h
    subst h
    obtain ⟨c2, e, _⟩ := evalDerivatives_spec f n hg hf hst.1 hst.2.1 hst.2.2
    exact ⟨c2, e⟩
  | cons δ steps ih =>
    obtain ⟨c0, e, g0, f0, s0⟩ := stepContext_spec f n δ hg hf hst.1 hst.2.1 hst.2.2
    rw [List.foldlM_cons, e] at h
    have h0 : Holds c0 (Ode.doStep f st δ).1 := by
      rw [Holds, s0]
      refine ⟨?_, ?_, ?_⟩
      · rw [writeTimeAndState, Function.update_of_ne (by decide), Function.update_self]
        rfl
      · rw [writeTimeAndState, Function.update_self]
        rfl
      · rw [writeTimeAndState, Function.update_of_ne (by decide), Function.update_of_ne (by decide)]
        exact hst.2.2
    exact ih c0 f0 h0 g0 h

end

/-- The values of the example: time 0, state 1, parameter 3. -/
def decaySources : Nat → ℚ ⊕ ℚ := fun t => if t = zTicket then .inl 1 else if t = parametersTicket then .inr 3 else .inl 0

/-- The state and the error estimate after steps, with evaluations and a change of the parameter to 2 before them. -/
def decaySteps (steps : List ℚ) (h : ℚ) : Option (ℚ ⊕ ℚ × ℚ) :=
  let f : ℚ → ℚ → ℚ → ℚ := fun t x k => t - k * x
  match odeSystem with
  | .error _ => none
  | .ok s =>
    match makeContext (fun _ => .inl 0) decaySources s with
    | .error _ => none
    | .ok c =>
      let c := history (odeCalc f) 3 [.eval derivativesIndex, .modify .parameters (fun _ => .inr 2), .eval derivativesIndex] c
      match steps.foldlM (fun c h => (stepContext (odeCalc f) 1 h c).map Prod.fst) c with
      | .error _ => none
      | .ok c1 =>
        match stepContext (odeCalc f) 1 h c1 with
        | .error _ => none
        | .ok (c2, e) => match c2.sources zTicket with
          | .inl x => some (.inr (x, e))
          | .inr x => some (.inl x)

example : decaySteps [1 / 2, 1] 2 = some (.inr (
    let st : Ode.State ℚ ℚ := ⟨0, 1, 2, 2, true, 1, none, none⟩
    let r := Ode.doStep (fun t x k => t - k * x)
      (([1 / 2, 1] : List ℚ).foldl (fun st h => (Ode.doStep (fun t x k => t - k * x) st h).1) st) 2
    (r.1.state, r.2))) := by decide +kernel

/-! ## C111: direct feedthrough -/

section

variable {V : Type}

/-- C111, for outputs with explicit prerequisites: an input and an output are reported exactly when one of the
prerequisites stands for the input. Missing: outputs with the default prerequisites, see `feedthrough_default_missed`. -/
theorem feedthrough_exact_partial {ds : List Decl} {s : System} {alloc sources : Nat → V} {c : Context V}
    (hs : declareAll ds = .ok s) (hc : makeContext alloc sources s = .ok c) :
    ∃ r, directFeedthroughs alloc sources s = .ok r ∧
      (∀ u v, (u, v) ∈ r → u < s.inputs.length ∧ v < s.outputs.length) ∧
      ∀ u v (input : Nat) (o : Nat × Nat) d, s.inputs[u]? = some input → s.outputs[v]? = some o → d ∈ s.entries →
        d.ticket = o.2 → d.prerequisites ≠ [allSourcesTicket] →
        ((u, v) ∈ r ↔ ∃ p ∈ d.prerequisites, Covers s p input) := by
  obtain ⟨r, e, hm⟩ := directFeedthroughs_spec hs hc
  refine ⟨r, e, ?_, ?_⟩
  · intro u v h
    obtain ⟨input, o, _, h1, h2, _⟩ := (hm u v).mp h
    exact ⟨(List.getElem?_eq_some_iff.mp h1).1, (List.getElem?_eq_some_iff.mp h2).1⟩
  · intro u v input o d h1 h2 h3 h4 h5
    rw [hm u v]
    have hsrc : s.source input := .inr (by simp [System.declared, List.mem_of_getElem? h1])
    obtain ⟨i, hi⟩ := List.mem_iff_getElem?.mp h3
    rw [← covers_entry hs hi hsrc]
    constructor
    · rintro ⟨input', o', d', g1, g2, g3, g4, _, g6⟩
      rw [h1] at g1
      rw [h2] at g2
      obtain rfl := Option.some.inj g1
      obtain rfl := Option.some.inj g2
      rw [h4, ← g4]
      exact g6
    · exact fun h => ⟨input, o, d, h1, h2, h3, h4, h5, h⟩

/-- C111, for outputs with explicit prerequisites: when an input and an output are not reported, the output computes the
same from all values of the input. -/
theorem feedthrough_sound_partial {ds : List Decl} {s : System} {alloc sources : Nat → V} {c : Context V} {k : Calc V}
    {r : List (Nat × Nat)} {u v i input : Nat} {o : Nat × Nat} {d : EntryDecl} {x y : Nat → V} {a : V}
    (hs : declareAll ds = .ok s) (hc : makeContext alloc sources s = .ok c) (hk : Declared s k)
    (hr : directFeedthroughs alloc sources s = .ok r) (h1 : s.inputs[u]? = some input) (h2 : s.outputs[v]? = some o)
    (h3 : s.entries[i]? = some d) (h4 : d.ticket = o.2) (h5 : d.prerequisites ≠ [allSourcesTicket]) (h6 : (u, v) ∉ r)
    (hxy : ∀ t, t ≠ input → y t = x t) (ha : Computes k x (k.prog i) a) : Computes k y (k.prog i) a := by
  obtain ⟨r', e, _, hm⟩ := feedthrough_exact_partial hs hc
  rw [hr] at e
  obtain rfl := Except.ok.inj e
  refine ha.congr fun t ht => hxy t ?_
  rintro rfl
  exact h6 ((hm u v t o d h1 h2 (List.mem_of_getElem? h3) h4 h5).mpr (hk i d h3 t ht))

/-- C111: the other questions agree with the report. -/
theorem feedthrough_questions {ds : List Decl} {s : System} {alloc sources : Nat → V} {c : Context V}
    (hs : declareAll ds = .ok s) (hc : makeContext alloc sources s = .ok c) :
    ∃ r, directFeedthroughs alloc sources s = .ok r ∧
      hasAnyDirectFeedthrough alloc sources s = .ok (decide (r ≠ [])) ∧
      ∀ u v, hasDirectFeedthrough alloc sources s u v = .ok (decide ((u, v) ∈ r)) := by
  obtain ⟨r, e, _⟩ := feedthrough_exact_partial hs hc
  refine ⟨r, e, ?_, fun u v => ?_⟩
  · simp only [hasAnyDirectFeedthrough, e, bind, Except.bind, pure, Except.pure, Except.ok.injEq, decide_eq_decide]
    exact List.length_pos_iff
  · simp only [hasDirectFeedthrough, e, bind, Except.bind, pure, Except.pure, Except.ok.injEq]
    rw [Bool.eq_iff_iff, List.any_eq_true, decide_eq_true_iff]
    constructor
    · rintro ⟨p, hp, he⟩
      simp only [Bool.and_eq_true, beq_iff_eq] at he
      obtain ⟨rfl, rfl⟩ := he
      exact hp
    · exact fun h => ⟨_, h, by simp⟩

end

/-- Two inputs; the first output depends on the second input through a cache entry, the second on neither. -/
def portDecls : List Decl :=
  [.inputPort, .inputPort, .cacheEntry [29, qTicket] false, .outputPort [30], .outputPort [timeTicket, xTicket]]

example : (match declareAll portDecls with
    | .ok s => decide (s.inputs = [28, 29] ∧ s.outputs = [(32, 31), (34, 33)] ∧
        directFeedthroughs (fun _ => 0) (fun _ => 0) s = .ok [(1, 0)] ∧
        hasAnyDirectFeedthrough (fun _ => 0) (fun _ => 0) s = .ok true ∧
        hasDirectFeedthrough (fun _ => 0) (fun _ => 0) s 0 1 = .ok false)
    | .error _ => false) = true := by decide +kernel

/-- Finding about C111: an output with the default prerequisites is never reported, although it may depend on the input:
here the output is the input. -/
theorem feedthrough_default_missed :
    ∃ (s : System) (k : Calc Nat) (i input : Nat) (o : Nat × Nat) (d : EntryDecl),
      declareAll [.inputPort, .outputPort [allSourcesTicket]] = .ok s ∧ Declared s k ∧ s.inputs[0]? = some input ∧
      s.outputs[0]? = some o ∧ s.entries[i]? = some d ∧ d.ticket = o.2 ∧
      (∀ x : Nat → Nat, Computes k x (k.prog i) (x input)) ∧
      directFeedthroughs (fun _ => 0) (fun _ => 0) s = .ok [] ∧
      hasDirectFeedthrough (fun _ => 0) (fun _ => 0) s 0 0 = .ok false := by
  let k : Calc Nat := ⟨fun i => if i = 6 then .read 28 .ret else .ret 0, fun _ v => v⟩
  refine ⟨{ newSystem with
      inputs := [28], entries := newSystem.entries ++ [⟨29, [allSourcesTicket], false⟩], outputs := [(30, 29)], next := 31 },
    k, 6, 28, (30, 29), ⟨29, [allSourcesTicket], false⟩, by decide, ?_, rfl, rfl, rfl, rfl, ?_, by decide +kernel,
    by decide +kernel⟩
  · intro i d hd t ht
    by_cases hi : i = 6
    · subst hi
      obtain rfl := Option.some.inj hd
      refine ⟨allSourcesTicket, by decide, ?_⟩
      have : t = 28 := by
        cases ht with
        | here => rfl
        | afterRead _ _ _ v h => cases h
      subst this
      exact .head (Part.all (t := allInputPortsTicket) (by decide)) (.single (Part.u (by decide)))
    · simp only [k, if_neg hi] at ht
      cases ht
  · intro x
    simp only [k, if_true]
    exact .read _ _ _ (.ret _)

/-! ## C112: what the predefined tickets stand for -/

/-- C112: the tickets of sources and of their groups stand for the sources they are documented to stand for, and
configuration and kinematics also for z. Missing: the tickets of the energies, see `energy_tickets_stand_for_nothing`. -/
theorem tickets_documented_partial {ds : List Decl} {s : System} (hs : declareAll ds = .ok s) {a t : Nat}
    (ha : a ≤ kinematicsTicket) (ht : t ∈ documented s allSourcesTicket) :
    Covers s a t ↔ t ∈ documented s a ∨ t = zTicket ∧ (a = configurationTicket ∨ a = kinematicsTicket) :=
  covers_documented (wellformed hs) ha (source_documented.mpr ht)

/-- C112: the ticket of the time derivatives is the ticket of their cache entry, and stands for all sources. -/
theorem derivatives_ticket {ds : List Decl} {s : System} (hs : declareAll ds = .ok s) :
    (s.entries[derivativesIndex]?).map EntryDecl.ticket = some xcdotTicket ∧
      ∀ t ∈ documented s allSourcesTicket, Covers s xcdotTicket t := by
  refine ⟨?_, fun t ht => derivatives_covers hs (source_documented.mpr ht)⟩
  obtain ⟨l, hl⟩ := entries_first hs
  rw [← hl]
  rfl

/-- Finding about C112: the tickets of the energies and powers are not those of their cache entries. They stand for no
source at all. -/
theorem energy_tickets_stand_for_nothing {ds : List Decl} {s : System} (hs : declareAll ds = .ok s) :
    (s.entries.take 4).map EntryDecl.ticket = [23, 24, 25, 26] ∧
      ∀ a ∈ [peTicket, keTicket, pcTicket, pncTicket], ∀ t ∈ documented s allSourcesTicket, ¬ Covers s a t := by
  refine ⟨?_, fun a ha t ht => energy_covers (wellformed hs) ha (source_documented.mpr ht)⟩
  obtain ⟨l, hl⟩ := entries_first hs
  rw [← hl]
  rfl

example : (∃ s, declareAll sumDecls = .ok s ∧ 28 ∈ documented s allSourcesTicket ∧ 28 ∈ documented s allInputPortsTicket ∧
    28 ∉ documented s kinematicsTicket) := ⟨sumSystem, sumSystem_declared, by decide, by decide, by decide⟩

/-- Finding about C112: a cache entry which is computed from the potential energy alone, and declares so with its ticket,
keeps its value when the positions change. The potential energy itself is computed again. -/
theorem pe_ticket_stale :
    ∃ (s : System) (k : Calc Nat) (c c1 c2 : Context Nat) (ops : List (Op Nat)),
      declareAll [.cacheEntry [peTicket] false] = .ok s ∧ k.prog 0 = .read qTicket .ret ∧ k.prog 6 = .eval 0 .ret ∧
      makeContext (fun _ => 0) (fun _ => 1) s = .ok c ∧ written s (fun _ => 1) ops qTicket = 2 ∧
      evalEntry k 2 6 (history k 2 ops c) = (c1, .ok 1) ∧ evalEntry k 2 0 (history k 2 ops c) = (c2, .ok 2) ∧
      ¬ Computes k (written s (fun _ => 1) ops) (k.prog 6) 1 := by
  let k : Calc Nat := ⟨fun i => if i = 0 then .read qTicket .ret else if i = 6 then .eval 0 .ret else .ret 0, fun _ v => v⟩
  let s : System := { newSystem with entries := newSystem.entries ++ [⟨28, [peTicket], false⟩], next := 29 }
  let ops : List (Op Nat) := [.eval 6, .modify .continuousState fun _ => 2]
  obtain ⟨c, hc⟩ : ∃ c, makeContext (fun _ => 0) (fun _ => 1) s = .ok c := by
    cases h : makeContext (fun _ => 0) (fun _ => 1) s with
    | ok c => exact ⟨c, rfl⟩
    | error e =>
      have : (match makeContext (fun _ => 0) (fun _ => 1) s with | .ok _ => true | .error _ => false) = true := by
        decide +kernel
      rw [h] at this
      cases this
  have hv : (match makeContext (fun _ => 0) (fun _ => 1) s with
      | .ok c => decide ((evalEntry k 2 6 (history k 2 ops c)).2 = .ok 1 ∧ (evalEntry k 2 0 (history k 2 ops c)).2 = .ok 2)
      | .error _ => false) = true := by decide +kernel
  rw [hc] at hv
  simp only [decide_eq_true_eq] at hv
  refine ⟨s, k, c, _, _, ops, by decide, rfl, rfl, hc, by decide, Prod.ext rfl hv.1, Prod.ext rfl hv.2, ?_⟩
  intro h
  have h' : Computes k (written s (fun _ => 1) ops) (.eval 0 .ret) 1 := h
  cases h' with
  | eval _ _ w _ h1 h2 =>
    cases h2 with
    | ret =>
      have h1' : Computes k (written s (fun _ => 1) ops) (.read qTicket .ret) 1 := h1
      cases h1' with
      | read _ _ _ h3 =>
        have : written s (fun _ => 1) ops qTicket = 2 := by decide
        rw [this] at h3
        cases h3

end Maliput.Props
