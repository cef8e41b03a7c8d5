import Verif.Model.PeriodicEvents

set_option autoImplicit false

/-!
# When periodic events are due
-/
namespace Maliput.Periodic.Spec

/-- The timing makes sense: it recurs, and starts no earlier than at zero. -/
def Sound (a : PeriodicEventData) : Prop := 0 < a.period ∧ 0 ≤ a.offset

/-- The times the event happens at: the offset and any number of periods. -/
def Sample (a : PeriodicEventData) (t : ℚ) : Prop := ∃ k : ℕ, t = a.offset + k * a.period

/-- `t` is the earliest time after `now` with the property. -/
def EarliestAfter (P : ℚ → Prop) (now t : ℚ) : Prop := P t ∧ now < t ∧ ∀ t', P t' → now < t' → t ≤ t'

/-- Something declared happens at that time. -/
def SomethingAt (declared : List (PeriodicEventData × Event)) (t : ℚ) : Prop := ∃ p ∈ declared, Sample p.1 t

/-- The events of a kind in a collection. -/
def ofKind (c : Composite) : Kind → List Event
  | .publish => c.publish
  | .discreteUpdate => c.discreteUpdate
  | .unrestrictedUpdate => c.unrestrictedUpdate

open Classical in
/-- The declared events of a kind that happen at a time, in the order of their declarations. -/
noncomputable def due (declared : List (PeriodicEventData × Event)) (k : Kind) (t : ℚ) : List Event :=
  (declared.filter (fun p => decide (p.2.kind = k ∧ Sample p.1 t))).map (·.2)

/-- All of them, by kind. -/
noncomputable def allDue (declared : List (PeriodicEventData × Event)) (t : ℚ) : Composite :=
  ⟨due declared .publish t, due declared .discreteUpdate t, due declared .unrestrictedUpdate t⟩

/-- A system as a client makes it: events are declared one after the other. -/
inductive Declared : System → Prop
  | new : Declared .new
  | periodic {s s' : System} {period offset : ℚ} {e : Event} :
      Declared s → declarePeriodicEvent s period offset e = .ok s' → Declared s'
  | perStep {s s' : System} {e : Event} : Declared s → declarePerStepEvent s e = .ok s' → Declared s'
  | initialization {s s' : System} {e : Event} : Declared s → declareInitializationEvent s e = .ok s' → Declared s'

/-- What a simulation does: from a time it goes on to the next update, and from there to the next one.  The history has the times of the
updates and the events reported for them. -/
inductive Run (s : System) (start : ℚ) : List (ℚ × Composite) → ℚ → Prop
  | start : Run s start [] start
  | next {h : List (ℚ × Composite)} {now t : ℚ} {scratch es : Composite} :
      Run s start h now → calcNextUpdateTime s ⟨now, none⟩ scratch = .ok (some t, es) → Run s start (h ++ [(t, es)]) t

/-- There is exactly one timing of periodic discrete updates, and it is this one. -/
def OnlyDiscreteTiming (declared : List (PeriodicEventData × Event)) (a : PeriodicEventData) : Prop :=
  (∃ e, (a, e) ∈ declared ∧ e.kind = .discreteUpdate) ∧ ∀ p ∈ declared, p.2.kind = .discreteUpdate → p.1 = a

end Maliput.Periodic.Spec
