import Verif.Lemmas.CacheWritten
import Verif.Lemmas.CacheMake
import Verif.Model.CacheUse

set_option autoImplicit false

/-!
The probes of the dependencies of outputs on inputs.
-/
namespace Maliput.Cache

open Maliput.Cache.Spec (Covers Part)
open Maliput.RouteGraph (Stop)

variable {V : Type}

theorem probe_spec {s : System} {c : Context V} (h : Structured s c) {input i : Nat} {d : EntryDecl} (hin : s.source input)
    (hd : s.entries[i]? = some d) :
    ∃ c' b, probe input i c = .ok (c', b) ∧ Structured s c' ∧ (b = true ↔ Covers s d.ticket input) := by
  have hi : i < s.entries.length := by
    by_contra hge
    rw [List.getElem?_eq_none (Nat.le_of_not_lt hge)] at hd
    cases hd
  have h1 : Structured s (c.mapEntry i fun en => { en with outOfDate := false }) := by
    rw [mapEntry_eq]
    refine h.flags _ fun j en => ?_
    split <;> rfl
  obtain ⟨en, hen⟩ := Option.isSome_iff_exists.mp (h1.isSome hi)
  have ho : en.outOfDate = false := by
    simp only [Context.mapEntry, if_true, Option.map_eq_some_iff] at hen
    obtain ⟨_, _, rfl⟩ := hen
    rfl
  obtain ⟨d', hd', ht⟩ := h1.entry hen
  rw [hd] at hd'
  obtain rfl := Option.some.inj hd'
  obtain ⟨c2, e, h2, _, _, _, _, hx⟩ := note_spec h1 [input] (by
    intro t ht
    simp only [List.mem_cons, List.not_mem_nil, or_false] at ht
    subst ht
    exact h1.plain t hin)
  obtain ⟨o, h3, h4⟩ := hx i en hen
  refine ⟨c2.mapEntry i fun en => { en with outOfDate := true }, o, ?_, ?_, ?_⟩
  · rw [probe, e]
    simp only [bind, Except.bind, h3]
  · rw [mapEntry_eq]
    refine h2.flags _ fun j en => ?_
    split <;> rfl
  · rw [h4, ho, ht]
    simp only [Bool.false_eq_true, false_or, List.mem_cons, List.not_mem_nil, or_false, exists_eq_left]
    exact upstream_known h1 (source_makes hin)

theorem entryOf_spec {ds : List Decl} {s : System} (hs : declareAll ds = .ok s) {o : Nat × Nat} (ho : o ∈ s.outputs) :
    ∃ d, s.entries[s.entryOf o]? = some d ∧ d.ticket = o.2 := by
  have hm := outputs_entries hs o ho
  obtain ⟨d, hd, e⟩ := List.mem_map.mp hm
  have hlt : s.entryOf o < s.entries.length := List.findIdx_lt_length_of_exists ⟨d, hd, by simp [e]⟩
  refine ⟨s.entries[s.entryOf o], List.getElem?_eq_getElem hlt, ?_⟩
  exact eq_of_beq (List.findIdx_getElem (w := hlt))

/-- What is listed: the pairs with an explicit list of prerequisites which includes the input. -/
def Listed (s : System) (u v : Nat) : Prop :=
  ∃ input o d, s.inputs[u]? = some input ∧ s.outputs[v]? = some o ∧ d ∈ s.entries ∧ d.ticket = o.2 ∧
    d.prerequisites ≠ [allSourcesTicket] ∧ Covers s d.ticket input

theorem entry_unique {s : System} (w : Wellformed s) {d d' : EntryDecl} (h : d ∈ s.entries) (h' : d' ∈ s.entries)
    (e : d.ticket = d'.ticket) : d = d' :=
  List.inj_on_of_nodup_map w.once h h' e

theorem feedthroughs_spec {ds : List Decl} {s : System} (hs : declareAll ds = .ok s) (ps : List (Nat × Nat)) :
    ∀ {c : Context V}, Structured s c → (∀ p ∈ ps, p.1 < s.inputs.length ∧ p.2 < s.outputs.length) →
      ∃ r, feedthroughs s ps c = .ok r ∧ ∀ u v, (u, v) ∈ r ↔ (u, v) ∈ ps ∧ Listed s u v := by
  have w := wellformed hs
  induction ps with
  | nil => exact fun _ _ => ⟨[], rfl, by simp⟩
  | cons p ps ih =>
    obtain ⟨u, v⟩ := p
    intro c hc hp
    obtain ⟨hu, hv⟩ := hp (u, v) (by simp)
    have hps : ∀ p ∈ ps, p.1 < s.inputs.length ∧ p.2 < s.outputs.length := fun p h => hp p (by simp [h])
    have eu : s.inputs[u]? = some s.inputs[u] := List.getElem?_eq_getElem hu
    have ev : s.outputs[v]? = some s.outputs[v] := List.getElem?_eq_getElem hv
    generalize hgu : s.inputs[u] = input at eu
    generalize hgv : s.outputs[v] = o at ev
    obtain ⟨d, hd, ed⟩ := entryOf_spec hs (List.mem_of_getElem? ev)
    have hdm := List.mem_of_getElem? hd
    have hlisted : Listed s u v ↔ d.prerequisites ≠ [allSourcesTicket] ∧ Covers s d.ticket input := by
      constructor
      · rintro ⟨input', o', d', h1, h2, h3, h4, h5, h6⟩
        rw [eu] at h1
        rw [ev] at h2
        obtain rfl := Option.some.inj h1
        obtain rfl := Option.some.inj h2
        obtain rfl := entry_unique w hdm h3 (ed.trans h4.symm)
        exact ⟨h5, h6⟩
      · exact fun h => ⟨input, o, d, eu, ev, hdm, ed, h.1, h.2⟩
    rw [feedthroughs]
    simp only [eu, ev, hd]
    split
    · rename_i hdef
      obtain ⟨r, hr, hm⟩ := ih hc hps
      refine ⟨r, hr, fun a b => ?_⟩
      rw [hm a b, List.mem_cons]
      refine and_congr_left fun hl => ⟨Or.inr, ?_⟩
      rintro (h | h)
      · simp only [Prod.mk.injEq] at h
        obtain ⟨rfl, rfl⟩ := h
        exact absurd (by simpa [EntryDecl.hasDefaultPrerequisites] using hdef) (hlisted.mp hl).1
      · exact h
    · rename_i hdef
      have hsrc : s.source input := .inr (by simp [System.declared, List.mem_of_getElem? eu])
      obtain ⟨c', b, hpr, hc', hb⟩ := probe_spec hc hsrc hd
      obtain ⟨r, hr, hm⟩ := ih hc' hps
      refine ⟨if b then (u, v) :: r else r, by simp only [hpr, hr, bind, Except.bind, pure, Except.pure], fun a b' => ?_⟩
      have hb' : b = true ↔ Listed s u v := by
        rw [hb, hlisted]
        exact ⟨fun h => ⟨by simpa [EntryDecl.hasDefaultPrerequisites] using hdef, h⟩, fun h => h.2⟩
      cases b with
      | true =>
        rw [if_pos rfl, List.mem_cons, hm a b', List.mem_cons]
        constructor
        · rintro (h | h)
          · refine ⟨.inl h, ?_⟩
            simp only [Prod.mk.injEq] at h
            obtain ⟨rfl, rfl⟩ := h
            exact hb'.mp rfl
          · exact ⟨.inr h.1, h.2⟩
        · rintro ⟨h | h, hl⟩
          · exact .inl h
          · exact .inr ⟨h, hl⟩
      | false =>
        rw [if_neg (by simp), hm a b', List.mem_cons]
        refine and_congr_left fun hl => ⟨Or.inr, ?_⟩
        rintro (h | h)
        · simp only [Prod.mk.injEq] at h
          obtain ⟨rfl, rfl⟩ := h
          exact absurd (hb'.mpr hl) (by simp)
        · exact h

theorem mem_portPairs {s : System} {u v : Nat} : (u, v) ∈ s.portPairs ↔ u < s.inputs.length ∧ v < s.outputs.length := by
  simp only [System.portPairs, List.mem_flatMap, List.mem_map, List.mem_range, Prod.mk.injEq]
  constructor
  · rintro ⟨a, ha, b, hb, rfl, rfl⟩
    exact ⟨ha, hb⟩
  · exact fun h => ⟨u, h.1, v, h.2, rfl, rfl⟩

theorem directFeedthroughs_spec {ds : List Decl} {s : System} {alloc sources : Nat → V} {c : Context V}
    (hs : declareAll ds = .ok s) (hc : makeContext alloc sources s = .ok c) :
    ∃ r, directFeedthroughs alloc sources s = .ok r ∧ ∀ u v, (u, v) ∈ r ↔ Listed s u v := by
  have hlt : ∀ u v, Listed s u v → u < s.inputs.length ∧ v < s.outputs.length := by
    rintro u v ⟨input, o, _, h1, h2, _⟩
    exact ⟨(List.getElem?_eq_some_iff.mp h1).1, (List.getElem?_eq_some_iff.mp h2).1⟩
  rw [directFeedthroughs]
  split
  · rename_i he
    refine ⟨[], rfl, fun u v => ?_⟩
    simp only [List.not_mem_nil, false_iff]
    intro hl
    have := mem_portPairs.mpr (hlt u v hl)
    rw [List.isEmpty_iff.mp he] at this
    simp at this
  · obtain ⟨r, hr, hm⟩ := feedthroughs_spec hs s.portPairs (structured_make (wellformed hs) hc) fun p hp =>
      mem_portPairs.mp hp
    refine ⟨r, by simp only [hc, RouteGraph.lift, hr, bind, Except.bind], fun u v => ?_⟩
    rw [hm u v]
    exact ⟨fun h => h.2, fun h => ⟨mem_portPairs.mpr (hlt u v h), h⟩⟩

end Maliput.Cache
