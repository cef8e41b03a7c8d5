import Verif.Lemmas.PhaseRingErrors
import Verif.Props.Phases
import Verif.Spec.LoadedPhases

set_option autoImplicit false

/-!
Helper lemmas for loaded phase rings that are driven by a phase provider.
-/
namespace Maliput.Loader

open Maliput.Rules Maliput.TrafficLights Maliput.Phases Maliput.Phases.Spec Maliput.Loader.Spec Maliput.Props
  Maliput.Yaml Maliput.Yaml.Spec

/-- Every ring of the book is in one of its phases, and so is the next phase. -/
def Driven (b : Phases.Book) (p : Provider) : Prop :=
  ∀ id ring, getPhaseRing b id = some ring → ∃ cur, p.getPhase id = some cur ∧
    (∃ ph, ring.getPhase cur.state = some ph) ∧ ∀ n d, cur.next = some (n, d) → ∃ ph, ring.getPhase n = some ph

theorem Driven.step {b : Phases.Book} {p : Provider} (h : Driven b p) {op : ProviderOp} (ho : KeepsToRings b op) :
    Driven b (Provider.step p op).1 := by
  intro id ring hr
  obtain ⟨cur, h1, h2, h3⟩ := h id ring hr
  cases op with
  | add id' phase next duration =>
    refine ⟨cur, ?_, h2, h3⟩
    unfold Provider.step Provider.addPhaseRing
    dsimp only
    split
    · exact h1
    · unfold Provider.getPhase at h1 ⊢
      rw [Map.get?_emplace]
      by_cases e : id = id'
      · subst e
        simp [h1]
      · simp [e, h1]
  | set id' phase next duration =>
    unfold Provider.step Provider.setPhase
    dsimp only
    split
    · exact ⟨cur, h1, h2, h3⟩
    · split
      · exact ⟨cur, h1, h2, h3⟩
      · unfold Provider.getPhase
        rw [Map.get?_set]
        by_cases e : id = id'
        · subst e
          obtain ⟨h4, h5⟩ := ho ring hr
          refine ⟨⟨phase, computeNext next duration⟩, by simp, h4, ?_⟩
          intro n d hn
          cases next with
          | none => simp [computeNext] at hn
          | some m =>
            simp only [computeNext, Option.map_some, Option.some.injEq, Prod.mk.injEq] at hn
            exact h5 n (by rw [hn.1])
        · exact ⟨cur, by simp [e]; exact h1, h2, h3⟩

theorem Driven.after {b : Phases.Book} {p : Provider} (h : Driven b p) {ops : List ProviderOp}
    (ho : ∀ op ∈ ops, KeepsToRings b op) : Driven b (after p ops) := by
  induction ops generalizing p with
  | nil => exact h
  | cons op ops ih => exact ih (h.step (ho op (by simp))) fun o h => ho o (by simp [h])

theorem driven_default {b : Phases.Book} {p : Provider} (h : defaultProvider b = .ok p)
    (hne : ∀ id ring, getPhaseRing b id = some ring → ring.phases.entries ≠ [])
    (hnext : ∀ id ring, getPhaseRing b id = some ring → ∀ k l, ring.getNextPhases k = .ok l → ∀ x ∈ l,
      ∃ ph, ring.getPhase x.id = some ph) : Driven b p := by
  intro id ring hr
  obtain ⟨phase, l, h1, h2, h3⟩ := (defaultProvider_phases b p h id).2 ring hr (hne id ring hr)
  refine ⟨_, h3, h1, ?_⟩
  intro n d hn
  cases l with
  | nil => simp at hn
  | cons x l =>
    simp only [List.head?_cons, Option.map_some, Option.some.injEq, Prod.mk.injEq] at hn
    rw [← hn.1]
    exact hnext id ring hr phase _ h2 x (by simp)

theorem ok_bind {α β : Type} (x : α) (f : α → Except Err β) : (Except.ok x >>= f) = f x := rfl

theorem discreteState_driven {b : Phases.Book} {p : Provider} (h : Driven b p) {k : String} {ring : Ring}
    (hf : findPhaseRing b k = .ok (some ring)) (hr : getPhaseRing b ring.id = some ring)
    (hs : ∀ id ph, ring.getPhase id = some ph → ∃ s, ph.discreteStates.get? k = some s)
    (manual : Map String (Result DiscreteValue)) :
    ∃ res cur ph s, discreteState b p manual k = .ok (some res) ∧ p.getPhase ring.id = some cur ∧ ring.getPhase cur.state = some ph ∧
      ph.discreteStates.get? k = some s ∧ res.state = s ∧ ((cur.next = none ∧ res.next = none) ∨ ∃ n d ph' s',
        cur.next = some (n, d) ∧ ring.getPhase n = some ph' ∧ ph'.discreteStates.get? k = some s' ∧ res.next = some (s', d)) := by
  obtain ⟨⟨cur, next⟩, h1, ⟨ph, h2⟩, h3⟩ := h _ _ hr
  obtain ⟨s, h4⟩ := hs _ _ h2
  dsimp only at h2 h3
  have hat : ∀ id ph, ring.getPhase id = some ph → ring.phases.at! id = .ok ph := fun id ph h => Map.at!_ok.2 h
  have hat' : ∀ (ph : Phase) s, ph.discreteStates.get? k = some s → ph.discreteStates.at! k = .ok s := fun ph s h => Map.at!_ok.2 h
  unfold discreteState
  rw [hf, ok_bind]
  dsimp only
  rw [h1]
  dsimp only
  rw [hat _ _ h2, ok_bind, hat' _ _ h4, ok_bind]
  cases next with
  | none => exact ⟨⟨s, none⟩, _, ph, s, rfl, rfl, h2, h4, rfl, .inl ⟨rfl, rfl⟩⟩
  | some nd =>
    obtain ⟨n, d⟩ := nd
    obtain ⟨ph', h6⟩ := h3 n d rfl
    obtain ⟨s', h7⟩ := hs _ _ h6
    dsimp only
    rw [hat _ _ h6, ok_bind, hat' _ _ h7, ok_bind]
    exact ⟨⟨s, some (s', d)⟩, _, ph, s, rfl, rfl, h2, h4, rfl, .inr ⟨n, d, ph', s', rfl, h6, h7, rfl⟩⟩

theorem rowState_driven {b : Phases.Book} {p : Provider} (h : Driven b p) {k : String} {ring : Ring}
    (hf : findPhaseRingRow b k = .ok (some ring)) (hr : getPhaseRing b ring.id = some ring)
    (hs : ∀ id ph, ring.getPhase id = some ph → ∃ s, ph.ruleStates.get? k = some s) :
    ∃ res cur ph s, rowState b p k = .ok (some res) ∧ p.getPhase ring.id = some cur ∧ ring.getPhase cur.state = some ph ∧
      ph.ruleStates.get? k = some s ∧ res.state = s ∧ ((cur.next = none ∧ res.next = none) ∨ ∃ n d ph' s',
        cur.next = some (n, d) ∧ ring.getPhase n = some ph' ∧ ph'.ruleStates.get? k = some s' ∧ res.next = some (s', d)) := by
  obtain ⟨⟨cur, next⟩, h1, ⟨ph, h2⟩, h3⟩ := h _ _ hr
  obtain ⟨s, h4⟩ := hs _ _ h2
  dsimp only at h2 h3
  have hat : ∀ id ph, ring.getPhase id = some ph → ring.phases.at! id = .ok ph := fun id ph h => Map.at!_ok.2 h
  have hat' : ∀ (ph : Phase) s, ph.ruleStates.get? k = some s → ph.ruleStates.at! k = .ok s := fun ph s h => Map.at!_ok.2 h
  unfold rowState
  rw [hf, ok_bind]
  dsimp only
  rw [h1]
  dsimp only
  rw [hat _ _ h2, ok_bind, hat' _ _ h4, ok_bind]
  cases next with
  | none => exact ⟨⟨s, none⟩, _, ph, s, rfl, rfl, h2, h4, rfl, .inl ⟨rfl, rfl⟩⟩
  | some nd =>
    obtain ⟨n, d⟩ := nd
    obtain ⟨ph', h6⟩ := h3 n d rfl
    obtain ⟨s', h7⟩ := hs _ _ h6
    dsimp only
    rw [hat _ _ h6, ok_bind, hat' _ _ h7, ok_bind]
    exact ⟨⟨s, some (s', d)⟩, _, ph, s, rfl, rfl, h2, h4, rfl, .inr ⟨n, d, ph', s', rfl, h6, h7, rfl⟩⟩

end Maliput.Loader
