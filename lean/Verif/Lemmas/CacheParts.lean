import Verif.Lemmas.CacheWire

set_option autoImplicit false
set_option linter.unusedSectionVars false

/-!
What the wiring of a context subscribes is what the tickets stand for.
-/
namespace Maliput.Cache

open Spec (Part)

theorem mem_makeTrackers {g : Nat} {ts : List Nat} {w : Wire} :
    w ∈ makeTrackers g ts ↔ ∃ t ∈ ts, w = .create t ∨ w = .subscribe g t := by
  simp [makeTrackers]

theorem mem_outputTrackers {os : List (Nat × Nat)} {w : Wire} :
    w ∈ outputTrackers os ↔ ∃ o ∈ os, w = .create o.1 ∨ w = .subscribe o.1 o.2 := by
  simp [outputTrackers]

theorem mem_entryTrackers {w : Wire} (ds : List EntryDecl) : ∀ n, w ∈ entryTrackers n ds ↔
    ∃ i d, ds[i]? = some d ∧ (w = .entry (n + i) d.ticket d.disabledByDefault ∨ ∃ p ∈ d.prerequisites, w = .subscribe d.ticket p) := by
  induction ds with
  | nil => simp [entryTrackers]
  | cons d ds ih =>
    intro n
    rw [entryTrackers, List.mem_cons, List.mem_append, ih, List.mem_map]
    constructor
    · rintro (rfl | ⟨p, hp, rfl⟩ | ⟨i, d', h1, h2⟩)
      · exact ⟨0, d, rfl, .inl rfl⟩
      · exact ⟨0, d, rfl, .inr ⟨p, hp, rfl⟩⟩
      · refine ⟨i + 1, d', by simpa using h1, ?_⟩
        rwa [show n + (i + 1) = n + 1 + i by omega]
    · rintro ⟨i, d', h1, h2⟩
      cases i with
      | zero =>
        simp only [List.getElem?_cons_zero, Option.some.injEq] at h1
        subst h1
        rcases h2 with rfl | ⟨p, hp, rfl⟩
        · exact .inl rfl
        · exact .inr (.inl ⟨p, hp, rfl⟩)
      | succ i =>
        refine .inr (.inr ⟨i, d', by simpa using h1, ?_⟩)
        rwa [show n + 1 + i = n + (i + 1) by omega]

theorem subscribe_mem_wiring {s : System} {a b : Nat} : .subscribe a b ∈ wiring s ↔ Part s a b := by
  constructor
  · intro h
    simp only [wiring, sourceTrackers, List.mem_append, mem_makeTrackers, mem_outputTrackers, mem_entryTrackers,
      reduceCtorEq, false_or, Wire.subscribe.injEq] at h
    rcases h with ((h | ((((⟨t, ht, rfl, rfl⟩ | ⟨t, ht, rfl, rfl⟩) | ⟨t, ht, rfl, rfl⟩) | ⟨t, ht, rfl, rfl⟩) | ⟨t, ht, rfl, rfl⟩)) |
      ⟨i, d, hd, p, hp, rfl, rfl⟩) | ⟨o, ho, rfl, rfl⟩
    · simp only [builtInTrackers, List.mem_cons, reduceCtorEq, Wire.subscribe.injEq, false_or, List.not_mem_nil,
        or_false] at h
      rcases h with h | h | h | h | h | h | h | h | h | h | h | h | h | h | h | h | h | h | h | h | h | h <;>
        obtain ⟨rfl, rfl⟩ := h
      · exact .xc (by simp)
      · exact .xc (by simp)
      · exact .xc (by simp)
      · exact .x (by simp)
      · exact .x (by simp)
      · exact .x (by simp)
      · exact .p (by simp)
      · exact .p (by simp)
      · exact .exceptInputs (by simp)
      · exact .exceptInputs (by simp)
      · exact .exceptInputs (by simp)
      · exact .exceptInputs (by simp)
      · exact .all (by simp)
      · exact .all (by simp)
      · exact .configuration (by simp)
      · exact .configuration (by simp)
      · exact .configuration (by simp)
      · exact .configuration (by simp)
      · exact .configuration (by simp)
      · exact .configuration (by simp)
      · exact .kinematics (by simp)
      · exact .kinematics (by simp)
    · exact .xd ht
    · exact .xa ht
    · exact .pn ht
    · exact .pa ht
    · exact .u ht
    · exact .entry (List.mem_of_getElem? hd) hp
    · exact .output ho
  · intro h
    have hb : ∀ {w : Wire}, w ∈ builtInTrackers → w ∈ wiring s := fun h => by simp [wiring, h]
    have hs : ∀ {w : Wire}, w ∈ sourceTrackers s → w ∈ wiring s := fun h => by simp [wiring, h]
    cases h with
    | xc h =>
      apply hb
      simp only [List.mem_cons, List.not_mem_nil, or_false] at h
      rcases h with rfl | rfl | rfl <;> decide
    | x h =>
      apply hb
      simp only [List.mem_cons, List.not_mem_nil, or_false] at h
      rcases h with rfl | rfl | rfl <;> decide
    | p h =>
      apply hb
      simp only [List.mem_cons, List.not_mem_nil, or_false] at h
      rcases h with rfl | rfl <;> decide
    | exceptInputs h =>
      apply hb
      simp only [List.mem_cons, List.not_mem_nil, or_false] at h
      rcases h with rfl | rfl | rfl | rfl <;> decide
    | all h =>
      apply hb
      simp only [List.mem_cons, List.not_mem_nil, or_false] at h
      rcases h with rfl | rfl <;> decide
    | configuration h =>
      apply hb
      simp only [List.mem_cons, List.not_mem_nil, or_false] at h
      rcases h with rfl | rfl | rfl | rfl | rfl | rfl <;> decide
    | kinematics h =>
      apply hb
      simp only [List.mem_cons, List.not_mem_nil, or_false] at h
      rcases h with rfl | rfl <;> decide
    | xd h => exact hs (by simp [sourceTrackers, mem_makeTrackers, h])
    | xa h => exact hs (by simp [sourceTrackers, mem_makeTrackers, h])
    | pn h => exact hs (by simp [sourceTrackers, mem_makeTrackers, h])
    | pa h => exact hs (by simp [sourceTrackers, mem_makeTrackers, h])
    | u h => exact hs (by simp [sourceTrackers, mem_makeTrackers, h])
    | @entry d t hd hp =>
      obtain ⟨i, hi⟩ := List.getElem?_of_mem hd
      have : Wire.subscribe d.ticket b ∈ entryTrackers 0 s.entries :=
        (mem_entryTrackers _ _).mpr ⟨i, d, hi, .inr ⟨b, hp, rfl⟩⟩
      simp [wiring, this]
    | @output o ho =>
      have : Wire.subscribe o.1 o.2 ∈ outputTrackers s.outputs := mem_outputTrackers.mpr ⟨o, ho, .inr rfl⟩
      simp [wiring, this]

theorem entry_mem_wiring {s : System} {i t : Nat} {b : Bool} :
    .entry i t b ∈ wiring s ↔ ∃ d, s.entries[i]? = some d ∧ t = d.ticket ∧ b = d.disabledByDefault := by
  simp only [wiring, sourceTrackers, List.mem_append, mem_makeTrackers, mem_outputTrackers, mem_entryTrackers,
      reduceCtorEq, or_false, Wire.entry.injEq, and_false, exists_false, Nat.zero_add]
  constructor
  · rintro (h | ⟨j, d, hd, rfl, rfl, rfl⟩)
    · simp [builtInTrackers] at h
    · exact ⟨d, hd, rfl, rfl⟩
  · rintro ⟨d, hd, rfl, rfl⟩
    exact .inr ⟨i, d, hd, rfl, rfl, rfl⟩

/-- The sources a system declares. -/
def System.declared (s : System) : List Nat := s.discrete ++ s.abstract ++ s.numeric ++ s.abstractParams ++ s.inputs

theorem create_mem_wiring {s : System} {t : Nat} :
    .create t ∈ wiring s ↔ t < nextAvailableTicket ∨ t ∈ s.declared ∨ ∃ o ∈ s.outputs, o.1 = t := by
  have hb : .create t ∈ builtInTrackers ↔ t < nextAvailableTicket := by
    constructor
    · intro h
      simp only [builtInTrackers, List.mem_cons, reduceCtorEq, Wire.create.injEq, false_or, List.not_mem_nil,
        or_false] at h
      rcases h with h | h | h | h | h | h | h | h | h | h | h | h | h | h | h | h | h | h | h | h | h | h | h <;>
        subst h <;> decide
    · intro h
      have : ∀ t < nextAvailableTicket, Wire.create t ∈ builtInTrackers := by decide
      exact this t h
  simp only [wiring, sourceTrackers, List.mem_append, mem_makeTrackers, mem_outputTrackers, mem_entryTrackers, hb,
      reduceCtorEq, or_false, Wire.create.injEq, and_false, exists_false, System.declared, exists_eq_right,
      eq_comm (a := t), or_assoc]

end Maliput.Cache
