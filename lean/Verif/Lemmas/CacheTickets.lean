import Verif.Lemmas.CacheWritten

set_option autoImplicit false

/-!
What the predefined tickets stand for.
-/
namespace Maliput.Cache

open Maliput.Cache.Spec (Covers Part documented)

/-- The parts of the predefined tickets. -/
def System.parts (s : System) (a : Nat) : List Nat :=
  match a with
  | 6 => [qTicket, vTicket, zTicket]
  | 7 => s.discrete
  | 8 => s.abstract
  | 9 => [xcTicket, xdTicket, xaTicket]
  | 10 => s.numeric
  | 11 => s.abstractParams
  | 12 => [pnTicket, paTicket]
  | 13 => [timeTicket, accuracyTicket, xTicket, allParametersTicket]
  | 14 => s.inputs
  | 15 => [allSourcesExceptInputPortsTicket, allInputPortsTicket]
  | 16 => [accuracyTicket, qTicket, zTicket, xdTicket, xaTicket, allParametersTicket]
  | 17 => [configurationTicket, vTicket]
  | _ => []

theorem part_predefined {s : System} (w : Wellformed s) {a : Nat} (ha : a < nextAvailableTicket) (hx : a ≠ xcdotTicket)
    (t : Nat) : Part s a t ↔ t ∈ s.parts a := by
  constructor
  · intro h
    cases h with
    | entry hd _ => exact absurd (w.entries _ hd ha) hx
    | output ho =>
      have := (w.range _ (mem_given.mpr (.inr (.inr (List.mem_map_of_mem ho))))).1
      exact absurd ha (Nat.not_lt.mpr this)
    | _ h => exact h
  · intro h
    unfold System.parts at h
    split at h
    · exact .xc h
    · exact .xd h
    · exact .xa h
    · exact .x h
    · exact .pn h
    · exact .pa h
    · exact .p h
    · exact .exceptInputs h
    · exact .u h
    · exact .all h
    · exact .configuration h
    · exact .kinematics h
    · simp at h

theorem source_ne {s : System} (w : Wellformed s) {t : Nat} (ht : s.source t) :
    t ∈ [timeTicket, accuracyTicket, qTicket, vTicket, zTicket] ∨ nextAvailableTicket ≤ t := by
  rcases ht with h | h
  · exact .inl h
  · exact .inr (w.range t (mem_given.mpr (.inl h))).1

/-- A source stands for itself. -/
theorem covers_source {s : System} (w : Wellformed s) {a t : Nat} (ha : s.source a) : Covers s a t ↔ t = a := by
  constructor
  · intro h
    rcases Relation.ReflTransGen.cases_head h with h | ⟨b, hp, _⟩
    · exact h.symm
    · exfalso
      rcases ha with h1 | h1
      · simp only [List.mem_cons, List.not_mem_nil, or_false] at h1
        rcases h1 with rfl | rfl | rfl | rfl | rfl <;> rw [part_predefined w (by decide) (by decide)] at hp <;>
          exact List.not_mem_nil hp
      · have hge := (w.range a (mem_given.mpr (.inl h1))).1
        have hn := w.nodup
        simp only [System.given, List.nodup_append] at hn
        cases hp with
        | @entry d _ hd _ =>
          refine hn.1.2.2 _ h1 d.ticket ?_ rfl
          rw [List.mem_filter]
          exact ⟨List.mem_map_of_mem hd, by simpa using hge⟩
        | @output o ho => exact hn.2.2 o.1 (List.mem_append_left _ h1) o.1 (List.mem_map_of_mem ho) rfl
        | _ => revert hge; decide
  · rintro rfl
    exact .refl

theorem covers_predefined {s : System} (w : Wellformed s) {a t : Nat} (ha : a < nextAvailableTicket) (hx : a ≠ xcdotTicket)
    (hn : a ∉ [timeTicket, accuracyTicket, qTicket, vTicket, zTicket]) (ht : s.source t) :
    Covers s a t ↔ ∃ b ∈ s.parts a, Covers s b t := by
  have hne : a ≠ t := by
    rintro rfl
    rcases source_ne w ht with h | h
    · exact hn h
    · exact absurd ha (Nat.not_lt.mpr h)
  rw [Covers, Relation.ReflTransGen.cases_head_iff]
  simp only [hne, false_or, part_predefined w ha hx]
  rfl

theorem source_documented {s : System} {t : Nat} : s.source t ↔ t ∈ documented s allSourcesTicket := by
  simp only [System.source, System.declared, documented, allSourcesTicket, List.mem_append, List.mem_cons, List.not_mem_nil,
    or_false]
  tauto

theorem covers_documented {s : System} (w : Wellformed s) {a t : Nat} (ha : a ≤ kinematicsTicket) (ht : s.source t) :
    Covers s a t ↔ t ∈ documented s a ∨ t = zTicket ∧ (a = configurationTicket ∨ a = kinematicsTicket) := by
  have hl : ∀ b ∈ s.declared, (Covers s b t ↔ t = b) := fun b hb => covers_source w (.inr hb)
  have hmem : ∀ l : List Nat, (∀ b ∈ l, b ∈ s.declared) → ((∃ b ∈ l, Covers s b t) ↔ t ∈ l) := by
    intro l h
    constructor
    · rintro ⟨b, hb, hc⟩
      obtain rfl := (hl b (h b hb)).mp hc
      exact hb
    · exact fun h1 => ⟨t, h1, .refl⟩
  have s1 : Covers s 1 t ↔ t = 1 := covers_source w (.inl (by decide))
  have s2 : Covers s 2 t ↔ t = 2 := covers_source w (.inl (by decide))
  have s3 : Covers s 3 t ↔ t = 3 := covers_source w (.inl (by decide))
  have s4 : Covers s 4 t ↔ t = 4 := covers_source w (.inl (by decide))
  have s5 : Covers s 5 t ↔ t = 5 := covers_source w (.inl (by decide))
  have c0 : ¬ Covers s 0 t := by
    rw [covers_predefined w (by decide) (by decide) (by decide) ht]
    rintro ⟨b, hb, _⟩
    exact List.not_mem_nil hb
  have s6 : Covers s 6 t ↔ t = 3 ∨ t = 4 ∨ t = 5 := by
    rw [covers_predefined w (by decide) (by decide) (by decide) ht]
    simp [System.parts, qTicket, vTicket, zTicket, s3, s4, s5]
  have s7 : Covers s 7 t ↔ t ∈ s.discrete := by
    rw [covers_predefined w (by decide) (by decide) (by decide) ht]
    exact hmem s.discrete fun b hb => by simp [System.declared, hb]
  have s8 : Covers s 8 t ↔ t ∈ s.abstract := by
    rw [covers_predefined w (by decide) (by decide) (by decide) ht]
    exact hmem s.abstract fun b hb => by simp [System.declared, hb]
  have s9 : Covers s 9 t ↔ (t = 3 ∨ t = 4 ∨ t = 5) ∨ t ∈ s.discrete ∨ t ∈ s.abstract := by
    rw [covers_predefined w (by decide) (by decide) (by decide) ht]
    simp [System.parts, xcTicket, xdTicket, xaTicket, s6, s7, s8]
  have s10 : Covers s 10 t ↔ t ∈ s.numeric := by
    rw [covers_predefined w (by decide) (by decide) (by decide) ht]
    exact hmem s.numeric fun b hb => by simp [System.declared, hb]
  have s11 : Covers s 11 t ↔ t ∈ s.abstractParams := by
    rw [covers_predefined w (by decide) (by decide) (by decide) ht]
    exact hmem s.abstractParams fun b hb => by simp [System.declared, hb]
  have s12 : Covers s 12 t ↔ t ∈ s.numeric ∨ t ∈ s.abstractParams := by
    rw [covers_predefined w (by decide) (by decide) (by decide) ht]
    simp [System.parts, pnTicket, paTicket, s10, s11]
  have s13 : Covers s 13 t ↔ t = 1 ∨ t = 2 ∨ ((t = 3 ∨ t = 4 ∨ t = 5) ∨ t ∈ s.discrete ∨ t ∈ s.abstract) ∨
      t ∈ s.numeric ∨ t ∈ s.abstractParams := by
    rw [covers_predefined w (by decide) (by decide) (by decide) ht]
    simp [System.parts, timeTicket, accuracyTicket, xTicket, allParametersTicket, s1, s2, s9, s12]
  have s14 : Covers s 14 t ↔ t ∈ s.inputs := by
    rw [covers_predefined w (by decide) (by decide) (by decide) ht]
    exact hmem s.inputs fun b hb => by simp [System.declared, hb]
  have s16 : Covers s 16 t ↔ t = 2 ∨ t = 3 ∨ t = 5 ∨ t ∈ s.discrete ∨ t ∈ s.abstract ∨ t ∈ s.numeric ∨
      t ∈ s.abstractParams := by
    rw [covers_predefined w (by decide) (by decide) (by decide) ht]
    simp [System.parts, accuracyTicket, qTicket, zTicket, xdTicket, xaTicket, allParametersTicket, s2, s3, s5, s7, s8, s12]
  simp only [kinematicsTicket] at ha
  match a, ha with
  | 0, _ => simp [c0, documented, configurationTicket, kinematicsTicket]
  | 1, _ => simp [s1, documented, timeTicket, configurationTicket, kinematicsTicket]
  | 2, _ => simp [s2, documented, accuracyTicket, configurationTicket, kinematicsTicket]
  | 3, _ => simp [s3, documented, qTicket, configurationTicket, kinematicsTicket]
  | 4, _ => simp [s4, documented, vTicket, configurationTicket, kinematicsTicket]
  | 5, _ => simp [s5, documented, zTicket, configurationTicket, kinematicsTicket]
  | 6, _ => simp [s6, documented, qTicket, vTicket, zTicket, configurationTicket, kinematicsTicket]
  | 7, _ => simp [s7, documented, configurationTicket, kinematicsTicket]
  | 8, _ => simp [s8, documented, configurationTicket, kinematicsTicket]
  | 9, _ =>
    simp only [s9, documented, qTicket, vTicket, zTicket, configurationTicket, kinematicsTicket, List.mem_append,
      List.mem_cons, List.not_mem_nil, or_false, Nat.reduceEqDiff, and_false]
    clear hl hmem s1 s2 s3 s4 s5 c0 s6 s7 s8 s9 s10 s11 s12 s13 s14 s16 ht ha w
    tauto
  | 10, _ => simp [s10, documented, configurationTicket, kinematicsTicket]
  | 11, _ => simp [s11, documented, configurationTicket, kinematicsTicket]
  | 12, _ => simp [s12, documented, configurationTicket, kinematicsTicket]
  | 13, _ =>
    simp only [s13, documented, timeTicket, accuracyTicket, qTicket, vTicket, zTicket, configurationTicket, kinematicsTicket,
      List.mem_append, List.mem_cons, List.not_mem_nil, or_false, Nat.reduceEqDiff, and_false]
    clear hl hmem s1 s2 s3 s4 s5 c0 s6 s7 s8 s9 s10 s11 s12 s13 s14 s16 ht ha w
    tauto
  | 14, _ => simp [s14, documented, configurationTicket, kinematicsTicket]
  | 15, _ =>
    rw [covers_predefined w (by decide) (by decide) (by decide) ht]
    simp only [System.parts, allSourcesExceptInputPortsTicket, allInputPortsTicket, s13, s14, documented, timeTicket,
      accuracyTicket, qTicket, vTicket, zTicket, configurationTicket, kinematicsTicket, List.mem_append,
      List.mem_cons, List.not_mem_nil, or_false, Nat.reduceEqDiff, and_false, exists_eq_or_imp,
      exists_eq_left]
    clear hl hmem s1 s2 s3 s4 s5 c0 s6 s7 s8 s9 s10 s11 s12 s13 s14 s16 ht ha w
    tauto
  | 16, _ =>
    simp only [s16, documented, accuracyTicket, qTicket, zTicket, configurationTicket, kinematicsTicket,
      List.mem_append, List.mem_cons, List.not_mem_nil, or_false, Nat.reduceEqDiff, and_true]
    clear hl hmem s1 s2 s3 s4 s5 c0 s6 s7 s8 s9 s10 s11 s12 s13 s14 s16 ht ha w
    tauto
  | 17, _ =>
    rw [covers_predefined w (by decide) (by decide) (by decide) ht]
    simp only [System.parts, configurationTicket, vTicket, s16, s4, documented, accuracyTicket, qTicket, zTicket,
      kinematicsTicket, List.mem_append, List.mem_cons, List.not_mem_nil, or_false, Nat.reduceEqDiff,
      false_or, and_true, exists_eq_or_imp, exists_eq_left]
    clear hl hmem s1 s2 s3 s4 s5 c0 s6 s7 s8 s9 s10 s11 s12 s13 s14 s16 ht ha w
    tauto
  | n + 18, h => omega

theorem energy_covers {s : System} (w : Wellformed s) {a t : Nat} (ha : a ∈ [peTicket, keTicket, pcTicket, pncTicket])
    (ht : s.source t) : ¬ Covers s a t := by
  simp only [List.mem_cons, List.not_mem_nil, or_false] at ha
  rcases ha with rfl | rfl | rfl | rfl <;> rw [covers_predefined w (by decide) (by decide) (by decide) ht] <;>
    exact fun ⟨b, hb, _⟩ => List.not_mem_nil hb

/-- The cache entries every system has come first. -/
theorem entries_first {ds : List Decl} {s : System} (h : declareAll ds = .ok s) : newSystem.entries <+: s.entries := by
  have hentry : ∀ {ps b} {s s' : System}, declareCacheEntry ps b s = .ok s' → s.entries <+: s'.entries := by
    intro ps b s s' hd
    simp only [declareCacheEntry, declareCacheEntryWithKnownTicket] at hd
    obtain ⟨_, _, hd⟩ := bind_ok.mp hd
    simp only [pure, Except.pure, Except.ok.injEq] at hd
    subst hd
    exact List.prefix_append _ _
  have key : ∀ (ds : List Decl) (s s' : System), ds.foldlM (fun s d => declare d s) s = .ok s' →
      s.entries <+: s'.entries := by
    intro ds
    induction ds with
    | nil =>
      intro s s' hd
      simp only [List.foldlM_nil, pure, Except.pure, Except.ok.injEq] at hd
      rw [hd]
    | cons d ds ih =>
      intro s s' hd
      rw [List.foldlM_cons] at hd
      obtain ⟨s1, h1, hd⟩ := bind_ok.mp hd
      refine List.IsPrefix.trans ?_ (ih s1 s' hd)
      cases d with
      | cacheEntry ps b => exact hentry h1
      | outputPort ps =>
        simp only [declare] at h1
        obtain ⟨s2, h2, h1⟩ := bind_ok.mp h1
        simp only [pure, Except.pure, Except.ok.injEq] at h1
        subst h1
        have := hentry h2
        exact this
      | _ =>
        simp only [declare, Except.ok.injEq] at h1
        subst h1
        exact List.prefix_refl _
  exact key ds newSystem s h

theorem derivatives_covers {ds : List Decl} {s : System} (h : declareAll ds = .ok s) {t : Nat} (ht : s.source t) :
    Covers s xcdotTicket t := by
  have hm : (⟨xcdotTicket, [allSourcesTicket], false⟩ : EntryDecl) ∈ s.entries := (entries_first h).subset (by decide)
  refine .head (Part.entry hm (t := allSourcesTicket) (by decide)) ?_
  exact (covers_documented (wellformed h) (by decide) ht).mpr (.inl (source_documented.mp ht))

end Maliput.Cache
