import Verif.Lemmas.CacheParts
import Mathlib.Data.List.Nodup

set_option autoImplicit false
set_option linter.unusedSectionVars false

/-!
The tickets of declared systems, and the trackers of their contexts.
-/
namespace Maliput.Cache

open Spec (Part Covers)

variable {V : Type}

/-- Every ticket that a system has given away. -/
def System.given (s : System) : List Nat :=
  s.declared ++ (s.entries.map EntryDecl.ticket).filter (fun t => nextAvailableTicket ≤ t) ++ s.outputs.map Prod.fst

/-- What holds of every declared system. -/
structure Wellformed (s : System) : Prop where
  start : nextAvailableTicket ≤ s.next
  nodup : s.given.Nodup
  range : ∀ t ∈ s.given, nextAvailableTicket ≤ t ∧ t < s.next
  entries : ∀ d ∈ s.entries, d.ticket < nextAvailableTicket → d.ticket = xcdotTicket
  once : (s.entries.map EntryDecl.ticket).Nodup

theorem mem_given {s : System} {t : Nat} : t ∈ s.given ↔
    t ∈ s.declared ∨ (t ∈ s.entries.map EntryDecl.ticket ∧ nextAvailableTicket ≤ t) ∨ t ∈ s.outputs.map Prod.fst := by
  simp only [System.given, List.mem_append, List.mem_filter, decide_eq_true_eq, or_assoc]

theorem wellformed_new : Wellformed newSystem := by
  constructor <;> decide

/-- The given tickets after one more. -/
theorem Wellformed.grow {s s' : System} (h : Wellformed s) (hp : s'.given.Perm (s.next :: s.given))
    (hn : s'.next = s.next + 1) (he : ∀ d ∈ s'.entries, d.ticket < nextAvailableTicket → d.ticket = xcdotTicket)
    (ho : (s'.entries.map EntryDecl.ticket).Nodup) : Wellformed s' where
  start := by rw [hn]; exact Nat.le_succ_of_le h.start
  nodup := by
    rw [hp.nodup_iff, List.nodup_cons]
    exact ⟨fun hm => Nat.lt_irrefl _ (h.range _ hm).2, h.nodup⟩
  range t ht := by
    rw [hp.mem_iff, List.mem_cons] at ht
    rw [hn]
    rcases ht with rfl | ht
    · exact ⟨h.start, Nat.lt_succ_self _⟩
    · exact ⟨(h.range t ht).1, Nat.lt_succ_of_lt (h.range t ht).2⟩
  entries := he
  once := ho

theorem Wellformed.entry {s s' : System} {ps : List Nat} {b : Bool} (h : Wellformed s) (hd : declareCacheEntry ps b s = .ok s') :
    Wellformed s' ∧ s'.next = s.next + 1 ∧ s'.outputs = s.outputs ∧ s'.declared = s.declared ∧
      s'.entries = s.entries ++ [⟨s.next, ps, b⟩] := by
  simp only [declareCacheEntry, declareCacheEntryWithKnownTicket] at hd
  obtain ⟨_, _, hd⟩ := bind_ok.mp hd
  simp only [pure, Except.pure, Except.ok.injEq] at hd
  subst hd
  refine ⟨?_, rfl, rfl, rfl, rfl⟩
  refine h.grow ?_ rfl ?_ ?_
  · have hs := h.start
    simp only [System.given, System.declared, List.map_append, List.filter_append, List.map_cons, List.map_nil,
      List.filter_cons, List.filter_nil, hs, decide_true, if_true]
    rw [← List.append_assoc, List.append_assoc]
    exact List.perm_middle
  · intro d hd
    simp only [List.mem_append, List.mem_singleton] at hd
    rcases hd with hd | rfl
    · exact h.entries d hd
    · intro hlt
      exact absurd hlt (Nat.not_lt.mpr h.start)
  · simp only [List.map_append, List.map_cons, List.map_nil]
    rw [List.nodup_append]
    refine ⟨h.once, by simp, ?_⟩
    intro t ht u hu
    simp only [List.mem_singleton] at hu
    subst hu
    rintro rfl
    have : s.next ∈ s.given := mem_given.mpr (.inr (.inl ⟨ht, h.start⟩))
    exact Nat.lt_irrefl _ (h.range _ this).2

theorem Wellformed.declare {s s' : System} {d : Decl} (h : Wellformed s) (hd : Cache.declare d s = .ok s') :
    Wellformed s' := by
  cases d with
  | cacheEntry ps b => exact (h.entry hd).1
  | outputPort ps =>
    simp only [Cache.declare] at hd
    obtain ⟨s1, h1, hd⟩ := bind_ok.mp hd
    simp only [pure, Except.pure, Except.ok.injEq] at hd
    subst hd
    obtain ⟨w, _⟩ := h.entry h1
    refine w.grow ?_ rfl w.entries w.once
    simp only [System.given, System.declared, List.map_append, List.map_cons, List.map_nil]
    rw [← List.append_assoc]
    exact List.perm_append_singleton _ _
  | discreteState =>
    simp only [Cache.declare, Except.ok.injEq] at hd
    subst hd
    refine h.grow ?_ rfl h.entries h.once
    simp only [System.given, System.declared, List.append_assoc]
    exact List.perm_middle
  | abstractState =>
    simp only [Cache.declare, Except.ok.injEq] at hd
    subst hd
    refine h.grow ?_ rfl h.entries h.once
    simp only [System.given, System.declared, List.append_assoc]
    simp only [← List.append_assoc s.discrete, List.singleton_append]
    exact List.perm_middle
  | numericParameter =>
    simp only [Cache.declare, Except.ok.injEq] at hd
    subst hd
    refine h.grow ?_ rfl h.entries h.once
    simp only [System.given, System.declared, List.append_assoc]
    simp only [← List.append_assoc s.discrete, ← List.append_assoc (s.discrete ++ _), List.singleton_append]
    exact List.perm_middle
  | abstractParameter =>
    simp only [Cache.declare, Except.ok.injEq] at hd
    subst hd
    refine h.grow ?_ rfl h.entries h.once
    simp only [System.given, System.declared, List.append_assoc]
    simp only [← List.append_assoc s.discrete, ← List.append_assoc (s.discrete ++ _), List.singleton_append]
    exact (List.Perm.append_left _ List.perm_middle).trans List.perm_middle
  | inputPort =>
    simp only [Cache.declare, Except.ok.injEq] at hd
    subst hd
    refine h.grow ?_ rfl h.entries h.once
    simp only [System.given, System.declared, List.append_assoc]
    simp only [← List.append_assoc s.discrete, ← List.append_assoc (s.discrete ++ _), List.singleton_append]
    exact (List.Perm.append_left _ ((List.Perm.append_left _ List.perm_middle).trans List.perm_middle)).trans
      List.perm_middle

theorem wellformed_fold (ds : List Decl) : ∀ {s s' : System}, Wellformed s →
    ds.foldlM (fun s d => Cache.declare d s) s = .ok s' → Wellformed s' := by
  induction ds with
  | nil =>
    intro s s' h hd
    simp only [List.foldlM_nil, pure, Except.pure, Except.ok.injEq] at hd
    exact hd ▸ h
  | cons d ds ih =>
    intro s s' h hd
    rw [List.foldlM_cons] at hd
    obtain ⟨s1, h1, hd⟩ := bind_ok.mp hd
    exact ih (h.declare h1) hd

theorem wellformed {ds : List Decl} {s : System} (h : declareAll ds = .ok s) : Wellformed s :=
  wellformed_fold ds wellformed_new h

/-- The tickets which have no cache entry: those of time, accuracy, q, v and z, and of what the system declares. -/
def System.source (s : System) (t : Nat) : Prop := t ∈ [timeTicket, accuracyTicket, qTicket, vTicket, zTicket] ∨ t ∈ s.declared

/-- The trackers of a context of a system. -/
structure Structured (s : System) (c : Context V) : Prop where
  closed : Closed c
  start : -1 ≤ c.event
  events : Events c
  tracked : Tracked c
  indexed : Indexed c
  discrete : c.discrete = s.discrete
  abstract : c.abstract = s.abstract
  numeric : c.numeric = s.numeric
  abstractParams : c.abstractParams = s.abstractParams
  ports : c.inputs.map Prod.fst = s.inputs
  entries : ∀ i : Nat, (c.cache i).map Entry.ticket = s.entries[i]?.map EntryDecl.ticket
  known : ∀ t, Makes (wiring s) t → ∃ p, skel c t = some p
  plain : ∀ t, s.source t → ∃ l, skel c t = some (l, none)
  ends : ∀ a b, Part s a b → Makes (wiring s) a ∧ Makes (wiring s) b
  parts : ∀ a b, Part s b a → Edge c a b
  edges : ∀ a b, Edge c a b → Part s b a ∨ ∃ p : Nat, c.inputs[p]? = some (b, some a)
  fixed : ∀ (p : Nat) pt vt, c.inputs[p]? = some (pt, some vt) →
    Edge c vt pt ∧ (∃ l, skel c vt = some (l, none)) ∧ ¬ Makes (wiring s) vt
  unique : ∀ (p q : Nat) pt qt vt, c.inputs[p]? = some (pt, some vt) → c.inputs[q]? = some (qt, some vt) → p = q

theorem source_makes {s : System} {t : Nat} (h : s.source t) : Makes (wiring s) t := by
  refine .inl (create_mem_wiring.mpr ?_)
  rcases h with h | h
  · left
    simp only [List.mem_cons, List.not_mem_nil, or_false] at h
    rcases h with rfl | rfl | rfl | rfl | rfl <;> decide
  · exact .inr (.inl h)

theorem source_not_entry {s : System} (w : Wellformed s) {t : Nat} (h : s.source t) (i : Nat) (b : Bool) :
    .entry i t b ∉ wiring s := by
  intro hm
  obtain ⟨d, hd, rfl, _⟩ := entry_mem_wiring.mp hm
  have hmem := List.mem_of_getElem? hd
  rcases h with h | h
  · have hlt : d.ticket < nextAvailableTicket := by
      simp only [List.mem_cons, List.not_mem_nil, or_false] at h
      rcases h with h | h | h | h | h <;> rw [h] <;> decide
    rw [w.entries d hmem hlt] at h
    revert h
    decide
  · have hn := w.nodup
    have hr := (w.range d.ticket (mem_given.mpr (.inl h))).1
    rw [System.given, List.append_assoc, List.nodup_append] at hn
    refine hn.2.2 _ h d.ticket ?_ rfl
    rw [List.mem_append, List.mem_filter]
    exact .inl ⟨List.mem_map_of_mem hmem, by simpa using hr⟩

theorem structured_make {alloc src : Nat → V} {s : System} {c : Context V} (w : Wellformed s)
    (h : makeContext alloc src s = .ok c) : Structured s c := by
  obtain ⟨b, hf, he, h1, h2, h3, h4, h5, h6⟩ := makeContext_built h
  refine ⟨⟨b.size, fun x y hxy => (b.ends x y ((b.edge x y).mp hxy)).2⟩, by rw [he]; decide, ?_, ?_, ?_, h1, h2, h3, h4,
    ?_, ?_, ?_, ?_, ?_, ?_,
    ?_, ?_, ?_⟩
  · intro t tr ht
    rw [b.last t tr ht, he]
    decide
  · intro i en hen
    obtain ⟨t, d, hm, rfl⟩ := (b.cache i en).mp hen
    exact (b.index t i).mpr ⟨d, hm⟩
  · intro t l i ht
    obtain ⟨d, hm⟩ := (b.index t i).mp ⟨l, ht⟩
    exact ⟨_, (b.cache i _).mpr ⟨t, d, hm, rfl⟩, rfl⟩
  · rw [h5]
    simp [Function.comp_def]
  · intro i
    cases hs : s.entries[i]? with
    | some d =>
      rw [(b.cache i _).mpr ⟨d.ticket, d.disabledByDefault, entry_mem_wiring.mpr ⟨d, hs, rfl, rfl⟩, rfl⟩]
      rfl
    | none =>
      cases hc : c.cache i with
      | none => rfl
      | some en =>
        obtain ⟨t, d, hm, _⟩ := (b.cache i en).mp hc
        obtain ⟨d', hd, _⟩ := entry_mem_wiring.mp hm
        rw [hs] at hd
        cases hd
  · exact fun t ht => (b.made t).mpr ht
  · intro t ht
    obtain ⟨⟨l, j⟩, hp⟩ := (b.made t).mpr (source_makes ht)
    cases j with
    | none => exact ⟨l, hp⟩
    | some i =>
      obtain ⟨d, hd⟩ := (b.index t i).mp ⟨l, hp⟩
      exact absurd hd (source_not_entry w ht i d)
  · intro x y hxy
    obtain ⟨h1, h2⟩ := b.ends y x (subscribe_mem_wiring.mpr hxy)
    exact ⟨(b.made x).mp h2, (b.made y).mp h1⟩
  · exact fun x y hxy => (b.edge x y).mpr (subscribe_mem_wiring.mpr hxy)
  · exact fun x y hxy => .inl (subscribe_mem_wiring.mp ((b.edge x y).mp hxy))
  · intro p pt vt hp
    rw [h5, List.getElem?_map] at hp
    simp at hp
  · intro p q pt qt vt hp
    rw [h5, List.getElem?_map] at hp
    simp at hp

theorem fresh_make {alloc src : Nat → V} {s : System} {c : Context V} (k : Calc V)
    (h : makeContext alloc src s = .ok c) : Fresh k c := by
  obtain ⟨b, _⟩ := makeContext_built h
  intro i en hen ho
  obtain ⟨t, d, _, rfl⟩ := (b.cache i en).mp hen
  cases ho

end Maliput.Cache
