import Verif.Lemmas.CacheHistory

set_option autoImplicit false
set_option linter.unusedSectionVars false

/-!
The sources of a context hold what was last written to them, and what else the property theorems need.
-/
namespace Maliput.Cache

open Maliput.RouteGraph (Stop)
open Spec (Part Covers Computes Declared touched write written)

variable {V : Type}

/-- The context holds the values, and has the ports fixed. -/
structure Agree (x : (Nat → V) × (Nat → Bool)) (c : Context V) : Prop where
  sources : c.sources = x.1
  fixed : ∀ (p pt : Nat) o, c.inputs[p]? = some (pt, o) → (o.isSome = x.2 p)

theorem accessed_touched {s : System} {c : Context V} (h : Structured s c) (a : Access) : c.accessed a = touched s a := by
  cases a <;> simp only [Context.accessed, touched, h.discrete, h.abstract, h.numeric, h.abstractParams]

theorem Structured.port {s : System} {c : Context V} (h : Structured s c) (p : Nat) :
    s.inputs[p]? = c.inputs[p]?.map Prod.fst := by
  rw [← h.ports, List.getElem?_map]

theorem Agree.run {s : System} {k : Calc V} {c : Context V} {x : (Nat → V) × (Nat → Bool)} (hg : Good s k c)
    (hx : Agree x c) (n : Nat) (op : Op V) : Agree (write s x op) (op.run k n c) := by
  have h := hg.structured
  cases op with
  | modify a w =>
    obtain ⟨c', e, _, _, hi, hs, _⟩ := modify_spec h a w
    simp only [Op.run, e, write]
    refine ⟨?_, ?_⟩
    · rw [hs, accessed_touched h, hx.sources]
    · rw [hi]
      exact hx.fixed
  | fixInputPort p v =>
    have hport := h.port p
    cases hp : c.inputs[p]? with
    | none =>
      simp only [Op.run, fixInputPort, hp, write, hport, Option.map_none]
      exact hx
    | some y =>
      obtain ⟨pt, o⟩ := y
      obtain ⟨c', e, _, _, ⟨vt, hi⟩, hs, _⟩ := fixInputPort_spec h hp v
      simp only [Op.run, e, write, hport, hp, Option.map_some]
      refine ⟨by rw [hs, hx.sources], ?_⟩
      rw [hi]
      intro q qt o' hq
      by_cases hqp : q = p
      · subst hqp
        dsimp only
        rw [Function.update_self]
        have hlen : q < c.inputs.length := by
          by_contra hge
          rw [List.getElem?_eq_none (Nat.le_of_not_lt hge)] at hp
          cases hp
        rw [List.getElem?_set_self hlen] at hq
        simp only [Option.some.injEq, Prod.mk.injEq] at hq
        rw [← hq.2]
        rfl
      · rw [List.getElem?_set_ne (Ne.symm hqp)] at hq
        dsimp only
        rw [Function.update_of_ne hqp]
        exact hx.fixed q qt o' hq
  | setFixedInput p v =>
    have hport := h.port p
    cases hp : c.inputs[p]? with
    | none =>
      simp only [Op.run, setFixedInput, hp, write, hport, Option.map_none]
      exact hx
    | some y =>
      obtain ⟨pt, o⟩ := y
      have hf := hx.fixed p pt o hp
      cases o with
      | none =>
        simp only [Op.run, setFixedInput, hp, write, hport, Option.map_some, ← hf, Option.isSome_none]
        exact hx
      | some vt =>
        obtain ⟨c', e, _, _, hi, hs, _⟩ := setFixedInput_spec h hp v
        simp only [Op.run, e, write, hport, hp, Option.map_some, ← hf, Option.isSome_some, if_true]
        refine ⟨by rw [hs, hx.sources], ?_⟩
        rw [hi]
        exact hx.fixed
  | eval i =>
    have := (evalEntry_spec k n i c hg.fresh).kept
    refine ⟨?_, ?_⟩
    · exact this.sources.trans hx.sources
    · simp only [Op.run]
      rw [show (evalEntry k n i c).1.inputs = c.inputs from (congrArg Context.inputs this.rest :)]
      exact hx.fixed
  | disableCaching => exact ⟨hx.sources, hx.fixed⟩
  | enableCaching => exact ⟨hx.sources, hx.fixed⟩
  | setAllOutOfDate => exact ⟨hx.sources, hx.fixed⟩
  | disableEntry i => exact ⟨hx.sources, hx.fixed⟩
  | enableEntry i => exact ⟨hx.sources, hx.fixed⟩
  | freeze => exact ⟨hx.sources, hx.fixed⟩
  | unfreeze => exact ⟨hx.sources, hx.fixed⟩
  | clone => exact ⟨hx.sources, hx.fixed⟩

theorem history_agree {s : System} {k : Calc V} (hk : Declared s k) (n : Nat) (ops : List (Op V)) :
    ∀ {c : Context V} {x : (Nat → V) × (Nat → Bool)}, Good s k c → Agree x c →
      Agree (ops.foldl (write s) x) (Cache.history k n ops c) := by
  induction ops with
  | nil => exact fun _ h => h
  | cons op ops ih => exact fun h hx => ih (h.run hk n op) (hx.run h n op)

theorem history_sources {ds : List Decl} {s : System} {alloc src : Nat → V} {c : Context V} {k : Calc V}
    (hd : declareAll ds = .ok s) (hc : makeContext alloc src s = .ok c) (hk : Declared s k) (n : Nat) (ops : List (Op V)) :
    (Cache.history k n ops c).sources = written s src ops := by
  obtain ⟨_, _, _, _, _, _, _, hi, hs⟩ := makeContext_built hc
  have hx : Agree (src, fun _ => false) c := by
    refine ⟨hs, ?_⟩
    intro p pt o hp
    rw [hi, List.getElem?_map] at hp
    simp only [Option.map_eq_some_iff, Prod.mk.injEq] at hp
    obtain ⟨_, _, _, rfl⟩ := hp
    rfl
  exact (history_agree hk n ops (good_make k hd hc) hx).sources

/-- Only the prerequisites of an entry make it depend on anything. -/
theorem covers_entry {ds : List Decl} {s : System} (hd : declareAll ds = .ok s) {i : Nat} {d : EntryDecl}
    (hi : s.entries[i]? = some d) {t : Nat} (ht : s.source t) :
    Covers s d.ticket t ↔ ∃ p ∈ d.prerequisites, Covers s p t := by
  have w := wellformed hd
  have hmem := List.mem_of_getElem? hi
  constructor
  · intro hc
    rcases Relation.ReflTransGen.cases_head hc with rfl | ⟨p, hp, hr⟩
    · exact absurd (entry_mem_wiring.mpr ⟨d, hi, rfl, rfl⟩) (source_not_entry w ht i d.disabledByDefault)
    · refine ⟨p, ?_, hr⟩
      have hticket : d.ticket = xcdotTicket ∨ nextAvailableTicket ≤ d.ticket := by
        by_cases hlt : d.ticket < nextAvailableTicket
        · exact .inl (w.entries d hmem hlt)
        · exact .inr (Nat.le_of_not_lt hlt)
      have hne : ∀ n, n < nextAvailableTicket → n ≠ xcdotTicket → n ≠ d.ticket := by
        rintro n h1 h2 rfl
        rcases hticket with h | h
        · exact h2 h
        · exact absurd h1 (Nat.not_lt.mpr h)
      generalize htk : d.ticket = tk at hp hne
      cases hp with
      | xc h => exact absurd rfl (hne xcTicket (by decide) (by decide))
      | xd h => exact absurd rfl (hne xdTicket (by decide) (by decide))
      | xa h => exact absurd rfl (hne xaTicket (by decide) (by decide))
      | x h => exact absurd rfl (hne xTicket (by decide) (by decide))
      | pn h => exact absurd rfl (hne pnTicket (by decide) (by decide))
      | pa h => exact absurd rfl (hne paTicket (by decide) (by decide))
      | p h => exact absurd rfl (hne allParametersTicket (by decide) (by decide))
      | exceptInputs h => exact absurd rfl (hne allSourcesExceptInputPortsTicket (by decide) (by decide))
      | u h => exact absurd rfl (hne allInputPortsTicket (by decide) (by decide))
      | all h => exact absurd rfl (hne allSourcesTicket (by decide) (by decide))
      | configuration h => exact absurd rfl (hne configurationTicket (by decide) (by decide))
      | kinematics h => exact absurd rfl (hne kinematicsTicket (by decide) (by decide))
      | @entry d' _ hd' hp =>
        obtain rfl := List.inj_on_of_nodup_map w.once hmem hd' htk
        exact hp
      | @output o ho =>
        exfalso
        have hn := w.nodup
        rw [System.given, List.nodup_append] at hn
        have hg : o.1 ∈ s.outputs.map Prod.fst := List.mem_map_of_mem ho
        have hr := (w.range o.1 (mem_given.mpr (.inr (.inr hg)))).1
        refine hn.2.2 o.1 ?_ o.1 hg rfl
        rw [List.mem_append, List.mem_filter]
        exact .inr ⟨htk ▸ List.mem_map_of_mem hmem, by simpa using hr⟩
  · rintro ⟨p, hp, hr⟩
    exact .head (.entry hmem hp) hr

/-- An entry that is up to date and not disabled is not computed again. -/
theorem evalEntry_cached {k : Calc V} {n i : Nat} {c : Context V} {en : Entry V} (hc : c.cache i = some en)
    (ho : en.outOfDate = false) (hd : en.disabled = false) : evalEntry k (n + 1) i c = (c, .ok en.value) := by
  rw [evalEntry, hc]
  simp [ho, hd]

end Maliput.Cache
