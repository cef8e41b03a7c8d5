import Verif.Lemmas.CacheSystem

set_option autoImplicit false
set_option linter.unusedSectionVars false

/-!
The trackers and the cache values of a context stay right through every history.
-/
namespace Maliput.Cache

open Maliput.RouteGraph (Stop)
open Spec (Part Covers Computes Reads Declared)

variable {V : Type}

/-- Changes which leave the trackers, the declared sources and the tickets of the entries alone. -/
theorem Structured.same {s : System} {c c' : Context V} (h : Structured s c) (hs : ∀ t, skel c' t = skel c t)
    (hz : c'.size = c.size) (hv : c.event ≤ c'.event) (he : Events c') (h1 : c'.discrete = c.discrete) (h2 : c'.abstract = c.abstract)
    (h3 : c'.numeric = c.numeric) (h4 : c'.abstractParams = c.abstractParams) (h5 : c'.inputs = c.inputs)
    (ht : ∀ i, (c'.cache i).map Entry.ticket = (c.cache i).map Entry.ticket) : Structured s c' := by
  refine ⟨h.closed.congr hs hz, h.start.trans hv, he, ?_, ?_, h1.trans h.discrete, h2.trans h.abstract, h3.trans h.numeric,
    h4.trans h.abstractParams, by rw [h5]; exact h.ports, fun i => (ht i).trans (h.entries i), ?_, ?_, h.ends, ?_, ?_, ?_, ?_⟩
  · intro i en hen
    have := ht i
    rw [hen, Option.map_some, eq_comm, Option.map_eq_some_iff] at this
    obtain ⟨en0, h0, e0⟩ := this
    rw [hs, ← e0]
    exact h.tracked i en0 h0
  · intro t l i hti
    rw [hs] at hti
    obtain ⟨en, hen, e⟩ := h.indexed t l i hti
    have := ht i
    rw [hen, Option.map_some, Option.map_eq_some_iff] at this
    obtain ⟨en', h', e'⟩ := this
    exact ⟨en', h', e'.trans e⟩
  · intro t hm
    rw [hs]
    exact h.known t hm
  · intro t hm
    rw [hs]
    exact h.plain t hm
  · exact fun a b hab => (edge_congr hs a b).mpr (h.parts a b hab)
  · rw [h5]
    exact fun a b hab => h.edges a b ((edge_congr hs a b).mp hab)
  · rw [h5]
    intro p pt vt hp
    obtain ⟨e, l, m⟩ := h.fixed p pt vt hp
    rw [hs]
    exact ⟨(edge_congr hs vt pt).mpr e, l, m⟩
  · rw [h5]
    exact h.unique

theorem upstream_known {s : System} {c : Context V} (h : Structured s c) {a b : Nat} (ha : Makes (wiring s) a) :
    Upstream c a b ↔ Covers s b a := by
  constructor
  · intro hu
    have : Covers s b a ∧ Makes (wiring s) b := by
      induction hu with
      | refl => exact ⟨.refl, ha⟩
      | @tail x y _ hxy ih =>
        rcases h.edges x y hxy with hp | ⟨p, hp⟩
        · exact ⟨.head hp ih.1, (h.ends y x hp).1⟩
        · exact absurd ih.2 (h.fixed p y x hp).2.2
    exact this.1
  · intro hc
    induction hc using Relation.ReflTransGen.head_induction_on with
    | refl => exact .refl
    | @head x y hxy _ ih => exact ih.tail (h.parts y x hxy)

theorem upstream_value {s : System} {c : Context V} (h : Structured s c) {p pt vt t : Nat}
    (hp : c.inputs[p]? = some (pt, some vt)) (ht : Makes (wiring s) t) : Upstream c vt t ↔ Covers s t pt := by
  obtain ⟨he, _, hn⟩ := h.fixed p pt vt hp
  have hpt : Makes (wiring s) pt := by
    have hm : pt ∈ s.inputs := by
      rw [← h.ports]
      exact List.mem_map.mpr ⟨_, List.mem_of_getElem? hp, rfl⟩
    exact source_makes (.inr (by simp [System.declared, hm]))
  rw [← upstream_known h hpt]
  constructor
  · intro hu
    rcases Relation.ReflTransGen.cases_head hu with rfl | ⟨x, hx, hr⟩
    · exact absurd ht hn
    · rcases h.edges vt x hx with hx | ⟨q, hq⟩
      · exact absurd (h.ends x vt hx).2 hn
      · obtain rfl := h.unique p q pt x vt hp hq
        rw [hp] at hq
        simp only [Option.some.injEq, Prod.mk.injEq, and_true] at hq
        exact hq ▸ hr
  · exact fun hu => .head he hu

theorem Structured.entry {s : System} {c : Context V} (h : Structured s c) {i : Nat} {en : Entry V}
    (hen : c.cache i = some en) : ∃ d, s.entries[i]? = some d ∧ d.ticket = en.ticket := by
  have := h.entries i
  rw [hen, Option.map_some, eq_comm, Option.map_eq_some_iff] at this
  exact this

theorem Structured.isSome {s : System} {c : Context V} (h : Structured s c) {i : Nat} (hi : i < s.entries.length) :
    (c.cache i).isSome := by
  have := h.entries i
  rw [List.getElem?_eq_getElem hi] at this
  cases hc : c.cache i with
  | none => simp [hc] at this
  | some en => rfl

theorem entry_makes {s : System} {i : Nat} {d : EntryDecl} (h : s.entries[i]? = some d) : Makes (wiring s) d.ticket :=
  .inr ⟨i, d.disabledByDefault, entry_mem_wiring.mpr ⟨d, h, rfl, rfl⟩⟩

/-- A change event. -/
theorem note_spec {s : System} {c : Context V} (h : Structured s c) (ts : List Nat)
    (hts : ∀ t ∈ ts, ∃ l, skel c t = some (l, none)) :
    ∃ c', noteChange ts c = .ok c' ∧ Structured s c' ∧ c'.sources = c.sources ∧ c'.frozen = c.frozen ∧
      c'.inputs = c.inputs ∧ (∀ t, skel c' t = skel c t) ∧
      ∀ i en, c.cache i = some en → ∃ o, c'.cache i = some { en with outOfDate := o } ∧
        (o = true ↔ en.outOfDate = true ∨ ∃ t ∈ ts, Upstream c t en.ticket) := by
  obtain ⟨c', e, n, he, hx⟩ := noteChange_spec c ts h.closed h.events h.tracked h.indexed hts
  have hsk : ∀ t, skel c' t = skel c t := n.skels
  refine ⟨c', e, ?_, n.sources, n.frozen, n.inputs, hsk, hx⟩
  refine h.same hsk n.size (n.event ▸ by simp) he n.discrete n.abstract n.numeric n.abstractParams n.inputs ?_
  intro i
  cases hc : c.cache i with
  | none =>
    rcases n.cache i with h0 | ⟨en, h0, _⟩
    · rw [h0]
      simp [hc]
    · simp [hc] at h0
  | some en =>
    obtain ⟨o, ho, _⟩ := hx i en hc
    rw [ho]
    rfl

/-- Writing sources does not touch the trackers. -/
theorem Structured.write {s : System} {c : Context V} (h : Structured s c) (f : Nat → V) :
    Structured s { c with sources := f } :=
  h.same (fun _ => rfl) rfl (le_refl _) h.events rfl rfl rfl rfl rfl fun _ => rfl

/-- The entries which depend on what changed are out of date, the others keep what they computed. -/
theorem fresh_changed {s : System} {k : Calc V} (hk : Declared s k) {c c' : Context V} (h : Structured s c)
    (h' : Structured s c') (hf : Fresh k c)
    (hx : ∀ i en, c.cache i = some en → ∃ o, c'.cache i = some { en with outOfDate := o } ∧
      (o = false → en.outOfDate = false ∧ ∀ t, Covers s en.ticket t → c'.sources t = c.sources t)) : Fresh k c' := by
  intro i en' hen' ho
  obtain ⟨d, hd, _⟩ := h'.entry hen'
  have hi : i < s.entries.length := by
    by_contra hge
    rw [List.getElem?_eq_none (Nat.le_of_not_lt hge)] at hd
    cases hd
  obtain ⟨en, hen⟩ := Option.isSome_iff_exists.mp (h.isSome hi)
  obtain ⟨o, h1, h2⟩ := hx i en hen
  rw [h1] at hen'
  obtain rfl := Option.some.inj hen'
  dsimp only at ho
  obtain ⟨h3, h4⟩ := h2 ho
  refine (hf i en hen h3).congr fun t ht => h4 t ?_
  obtain ⟨p, hp, hc⟩ := hk i d hd t ht
  obtain ⟨d', hd', et⟩ := h.entry hen
  rw [hd] at hd'
  obtain rfl := Option.some.inj hd'
  rw [← et]
  exact .head (.entry (List.mem_of_getElem? hd) hp) hc

theorem accessed_source {s : System} {c : Context V} (h : Structured s c) (a : Access) :
    ∀ t ∈ c.accessed a, s.source t := by
  intro t ht
  have hd := h.discrete
  have ha := h.abstract
  have hn := h.numeric
  have hp := h.abstractParams
  cases a <;>
    simp only [Context.accessed, hd, ha, hn, hp, List.mem_append, List.mem_cons, List.not_mem_nil, or_false] at ht <;>
    simp only [System.source, System.declared, List.mem_append, List.mem_cons, List.not_mem_nil, or_false] <;>
    tauto

/-- What a change of values does. -/
theorem modify_spec {s : System} {c : Context V} (h : Structured s c) (a : Access) (w : Nat → V) :
    ∃ c', modify a w c = .ok c' ∧ Structured s c' ∧ c'.frozen = c.frozen ∧ c'.inputs = c.inputs ∧
      (c'.sources = fun t => if t ∈ c.accessed a then w t else c.sources t) ∧
      ∀ i en, c.cache i = some en → ∃ o, c'.cache i = some { en with outOfDate := o } ∧
        (o = true ↔ en.outOfDate = true ∨ ∃ t ∈ c.accessed a, Covers s en.ticket t) := by
  have hsrc := accessed_source h a
  obtain ⟨c1, e, h1, hs, hf, hi, _, hx⟩ := note_spec h (c.accessed a) fun t ht => h.plain t (hsrc t ht)
  refine ⟨{ c1 with sources := fun t => if t ∈ c.accessed a then w t else c1.sources t }, by rw [modify, e]; rfl,
    h1.write _, hf, hi, ?_, ?_⟩
  · dsimp only
    rw [hs]
  · intro i en hen
    obtain ⟨o, h2, h3⟩ := hx i en hen
    refine ⟨o, h2, ?_⟩
    rw [h3]
    refine or_congr_right (exists_congr fun t => and_congr_right fun ht => ?_)
    exact upstream_known h (source_makes (hsrc t ht))

theorem fresh_modify {s : System} {k : Calc V} (hk : Declared s k) {c c' : Context V} {a : Access} {w : Nat → V}
    (h : Structured s c) (hf : Fresh k c) (hm : modify a w c = .ok c') : Fresh k c' := by
  obtain ⟨c1, e, h1, _, _, hs, hx⟩ := modify_spec h a w
  rw [e] at hm
  obtain rfl := Except.ok.inj hm
  refine fresh_changed hk h h1 hf fun i en hen => ?_
  obtain ⟨o, h2, h3⟩ := hx i en hen
  refine ⟨o, h2, fun ho => ?_⟩
  have hno : ¬ (en.outOfDate = true ∨ ∃ t ∈ c.accessed a, Covers s en.ticket t) := by
    rw [← h3, ho]
    simp
  rw [not_or] at hno
  refine ⟨by simpa using hno.1, fun t ht => ?_⟩
  rw [hs]
  dsimp only
  rw [if_neg]
  exact fun hmem => hno.2 ⟨t, hmem, ht⟩

/-- The change of the value an input port is fixed to. -/
theorem fixed_spec {s : System} {c : Context V} (h : Structured s c) {p pt vt : Nat}
    (hp : c.inputs[p]? = some (pt, some vt)) (v : V) :
    ∃ c', (do let c ← noteChange [vt] c; pure { c with sources := Function.update c.sources pt v }) = Except.ok (ε := Stop) c' ∧
      Structured s c' ∧ c'.frozen = c.frozen ∧ c'.inputs = c.inputs ∧ c'.sources = Function.update c.sources pt v ∧
      ∀ i en, c.cache i = some en → ∃ o, c'.cache i = some { en with outOfDate := o } ∧
        (o = true ↔ en.outOfDate = true ∨ Covers s en.ticket pt) := by
  obtain ⟨_, hl, _⟩ := h.fixed p pt vt hp
  obtain ⟨c1, e, h1, hs, hf, hi, _, hx⟩ := note_spec h [vt] fun t ht => by
    rw [List.mem_singleton] at ht
    exact ht ▸ hl
  refine ⟨{ c1 with sources := Function.update c1.sources pt v }, by rw [e]; rfl, h1.write _, hf, hi,
    by dsimp only; rw [hs], ?_⟩
  intro i en hen
  obtain ⟨o, h2, h3⟩ := hx i en hen
  refine ⟨o, h2, ?_⟩
  rw [h3]
  obtain ⟨d, hd, et⟩ := h.entry hen
  simp only [List.mem_singleton, exists_eq_left]
  rw [← et, upstream_value h hp (entry_makes hd)]

/-- Fixing a port for the first time. -/
theorem wire_fixed {s : System} {c : Context V} (h : Structured s c) {p pt : Nat} (hp : c.inputs[p]? = some (pt, none)) :
    ∃ c1 c2, createTracker c.size none c = .ok c1 ∧ subscribe pt c.size c1 = .ok c2 ∧ c2.sources = c.sources ∧
      c2.frozen = c.frozen ∧ c2.cache = c.cache ∧ c2.inputs = c.inputs ∧
      Structured s { c2 with inputs := c2.inputs.set p (pt, some c.size) } := by
  have hnone : c.graph c.size = none := by
    cases hg : c.graph c.size with
    | none => rfl
    | some tr => exact absurd (h.closed.size c.size _ (by simp [skel, hg]; rfl)) (Nat.lt_irrefl _)
  have hps : s.source pt := by
    have hm : pt ∈ s.inputs := by
      rw [← h.ports]
      exact List.mem_map.mpr ⟨_, List.mem_of_getElem? hp, rfl⟩
    exact .inr (by simp [System.declared, hm])
  obtain ⟨lp, hlp⟩ := h.plain pt hps
  have hplt := h.closed.size pt _ hlp
  obtain ⟨trp, hgp, _⟩ := skel_some hlp
  set c1 : Context V := { c.setTracker c.size ⟨[], [], none, -1⟩ with size := max c.size (c.size + 1) } with hc1
  have e1 : createTracker c.size none c = .ok c1 := by
    rw [createTracker, hnone]
  have g1 : c1.graph pt = some trp := by
    simp [hc1, Context.setTracker, Nat.ne_of_lt hplt, hgp]
  have g1' : c1.graph c.size = some ⟨[], [], none, -1⟩ := by
    simp [hc1, Context.setTracker]
  obtain ⟨c2, e2⟩ : ∃ c2, subscribe pt c.size c1 = .ok c2 := by
    rw [subscribe, g1]
    dsimp only
    rw [show (c1.setTracker pt { trp with prerequisites := trp.prerequisites ++ [c.size] }).graph c.size = some ⟨[], [], none, -1⟩ by
      simp [Context.setTracker, (Nat.ne_of_lt hplt).symm, g1']]
    exact ⟨_, rfl⟩
  obtain ⟨_, ⟨l, j, hl, hsk⟩, hz, hcache, hlast, hrest⟩ := subscribe_spec e2
  have hl' : l = [] ∧ j = none := by
    simp only [skel, g1', Option.map_some, Option.some.injEq, Prod.mk.injEq] at hl
    exact ⟨hl.1.symm, hl.2.symm⟩
  obtain ⟨rfl, rfl⟩ := hl'
  have hsk1 : ∀ u, skel c1 u = if u = c.size then some ([], none) else skel c u := fun u => skel_setTracker c c.size _ u
  have hsk2 : ∀ u, skel c2 u = if u = c.size then some ([pt], none) else skel c u := by
    intro u
    rw [hsk, hsk1]
    split <;> rfl
  have hlt : ∀ u q, skel c u = some q → u ≠ c.size := fun u q hu => Nat.ne_of_lt (h.closed.size u q hu)
  have hin : c2.inputs = c.inputs := (congrArg Context.inputs hrest :)
  have hedge : ∀ a b, Edge c2 a b ↔ (a = c.size ∧ b = pt) ∨ Edge c a b := by
    intro a b
    simp only [Edge, hsk2]
    by_cases ha : a = c.size
    · subst ha
      have : skel c c.size = none := skel_none.mpr hnone
      simp [this]
    · simp [ha]
  have hz2 : c2.size = c.size + 1 := by
    rw [hz, hc1]
    exact Nat.max_eq_right (Nat.le_succ _)
  refine ⟨c1, c2, e1, e2, (congrArg Context.sources hrest :), (congrArg Context.frozen hrest :), hcache, hin, ?_⟩
  set c3 : Context V := { c2 with inputs := c2.inputs.set p (pt, some c.size) } with hc3
  have hev : c3.event = c.event := (congrArg Context.event hrest :)
  have hplen : p < c.inputs.length := by
    by_contra hge
    rw [List.getElem?_eq_none (Nat.le_of_not_lt hge)] at hp
    cases hp
  have hin3 : ∀ q : Nat, c3.inputs[q]? = if q = p then some (pt, some c.size) else c.inputs[q]? := by
    intro q
    simp only [hc3, hin, List.getElem?_set]
    by_cases hq : q = p
    · subst hq
      simp [hplen]
    · simp [hq, Ne.symm hq]
  refine ⟨⟨?_, ?_⟩, hev ▸ h.start, ?_, ?_, ?_, ?_, ?_, ?_, ?_, ?_, ?_, ?_, ?_, h.ends, ?_, ?_, ?_, ?_⟩
  · intro t q ht
    have ht : skel c2 t = some q := ht
    change t < c2.size
    rw [hz2]
    rw [hsk2] at ht
    split at ht
    · omega
    · exact Nat.lt_succ_of_lt (h.closed.size t q ht)
  · intro a b hab
    change ∃ q, skel c2 b = some q
    rw [hsk2]
    split
    · exact ⟨_, rfl⟩
    · rcases (hedge a b).mp hab with ⟨_, rfl⟩ | hab
      · exact ⟨_, hlp⟩
      · exact h.closed.subs a b hab
  · intro t tr ht
    have ht : c2.graph t = some tr := ht
    obtain ⟨tr1, ht1, hl1⟩ := hlast t tr ht
    rw [hev, hl1]
    simp only [hc1, Context.setTracker] at ht1
    by_cases htz : t = c.size
    · subst htz
      rw [Function.update_self] at ht1
      obtain rfl := Option.some.inj ht1
      exact h.start
    · rw [Function.update_of_ne htz] at ht1
      exact h.events t tr1 ht1
  · intro i en hen
    have hen : c2.cache i = some en := hen
    rw [hcache] at hen
    obtain ⟨l, hl⟩ := h.tracked i en hen
    refine ⟨l, ?_⟩
    change skel c2 en.ticket = _
    rw [hsk2, if_neg (hlt _ _ hl)]
    exact hl
  · intro t l i ht
    have ht : skel c2 t = _ := ht
    rw [hsk2] at ht
    split at ht
    · simp at ht
    · obtain ⟨en, hen, et⟩ := h.indexed t l i ht
      exact ⟨en, by change c2.cache i = _; rw [hcache]; exact hen, et⟩
  · exact (congrArg Context.discrete hrest).trans h.discrete
  · exact (congrArg Context.abstract hrest).trans h.abstract
  · exact (congrArg Context.numeric hrest).trans h.numeric
  · exact (congrArg Context.abstractParams hrest).trans h.abstractParams
  · rw [← h.ports]
    refine List.ext_getElem? fun q => ?_
    rw [List.getElem?_map, List.getElem?_map, hin3]
    split
    · rename_i hq
      rw [hq, hp]
      rfl
    · rfl
  · intro i
    change (c2.cache i).map _ = _
    rw [hcache]
    exact h.entries i
  · intro t ht
    obtain ⟨q, hq⟩ := h.known t ht
    change ∃ q, skel c2 t = some q
    rw [hsk2, if_neg (hlt _ _ hq)]
    exact ⟨q, hq⟩
  · intro t ht
    obtain ⟨q, hq⟩ := h.plain t ht
    change ∃ l, skel c2 t = some (l, none)
    rw [hsk2, if_neg (hlt _ _ hq)]
    exact ⟨q, hq⟩
  · exact fun a b hab => (hedge a b).mpr (.inr (h.parts a b hab))
  · intro a b hab
    rcases (hedge a b).mp hab with ⟨rfl, rfl⟩ | hab
    · exact .inr ⟨p, by rw [hin3, if_pos rfl]⟩
    · rcases h.edges a b hab with h1 | ⟨q, hq⟩
      · exact .inl h1
      · refine .inr ⟨q, ?_⟩
        rw [hin3, if_neg]
        · exact hq
        · rintro rfl
          rw [hp] at hq
          simp at hq
  · intro q qt vt hq
    rw [hin3] at hq
    split at hq
    · simp only [Option.some.injEq, Prod.mk.injEq] at hq
      obtain ⟨rfl, rfl⟩ := hq
      refine ⟨(hedge _ _).mpr (.inl ⟨rfl, rfl⟩), ⟨[pt], ?_⟩, ?_⟩
      · change skel c2 c.size = _
        rw [hsk2, if_pos rfl]
      · intro hm
        obtain ⟨r, hr⟩ := h.known _ hm
        exact hlt _ _ hr rfl
    · obtain ⟨h1, ⟨l, h2⟩, h3⟩ := h.fixed q qt vt hq
      refine ⟨(hedge _ _).mpr (.inr h1), ⟨l, ?_⟩, h3⟩
      change skel c2 vt = _
      rw [hsk2, if_neg (hlt _ _ h2)]
      exact h2
  · intro q r qt rt vt hq hr
    rw [hin3] at hq hr
    split at hq <;> split at hr
    · rename_i h1 h2
      rw [h1, h2]
    · simp only [Option.some.injEq, Prod.mk.injEq] at hq
      obtain ⟨_, ⟨l, h2⟩, _⟩ := h.fixed r rt vt hr
      exact absurd hq.2.symm (hlt _ _ h2)
    · simp only [Option.some.injEq, Prod.mk.injEq] at hr
      obtain ⟨_, ⟨l, h2⟩, _⟩ := h.fixed q qt vt hq
      exact absurd hr.2.symm (hlt _ _ h2)
    · exact h.unique q r qt rt vt hq hr

/-- What fixing an input port does. -/
theorem fixInputPort_spec {s : System} {c : Context V} (h : Structured s c) {p pt : Nat} {o : Option Nat}
    (hp : c.inputs[p]? = some (pt, o)) (v : V) :
    ∃ c', fixInputPort p v c = .ok c' ∧ Structured s c' ∧ c'.frozen = c.frozen ∧
      (∃ vt, c'.inputs = c.inputs.set p (pt, some vt)) ∧ c'.sources = Function.update c.sources pt v ∧
      ∀ i en, c.cache i = some en → ∃ o, c'.cache i = some { en with outOfDate := o } ∧
        (o = true ↔ en.outOfDate = true ∨ Covers s en.ticket pt) := by
  have hplen : p < c.inputs.length := by
    by_contra hge
    rw [List.getElem?_eq_none (Nat.le_of_not_lt hge)] at hp
    cases hp
  cases o with
  | some vt =>
    obtain ⟨c', e, h1, h2, h3, h4, h5⟩ := fixed_spec h hp v
    refine ⟨c', ?_, h1, h2, ⟨vt, ?_⟩, h4, h5⟩
    · rw [fixInputPort, hp]
      exact e
    · rw [h3]
      refine List.ext_getElem? fun q => ?_
      rw [List.getElem?_set]
      split
      · rename_i hq
        rw [← hq, hp]
      · rfl
  | none =>
    obtain ⟨c1, c2, e1, e2, hs, hf, hc, hi, h3⟩ := wire_fixed h hp
    have hp3 : ({ c2 with inputs := c2.inputs.set p (pt, some c.size) } : Context V).inputs[p]? = some (pt, some c.size) := by
      dsimp only
      rw [hi, List.getElem?_set_self hplen]
    obtain ⟨c', e, h1, h2, h4, h5, h6⟩ := fixed_spec h3 hp3 v
    refine ⟨c', ?_, h1, h2.trans hf, ⟨c.size, ?_⟩, ?_, ?_⟩
    · rw [fixInputPort, hp]
      dsimp only
      rw [e1]
      simp only [RouteGraph.lift, bind, Except.bind]
      rw [e2]
      exact e
    · rw [h4]
      dsimp only
      rw [hi]
    · rw [h5]
      dsimp only
      rw [hs]
    · intro i en hen
      exact h6 i en (by dsimp only; rw [hc]; exact hen)

theorem setFixedInput_spec {s : System} {c : Context V} (h : Structured s c) {p pt vt : Nat}
    (hp : c.inputs[p]? = some (pt, some vt)) (v : V) :
    ∃ c', setFixedInput p v c = .ok c' ∧ Structured s c' ∧ c'.frozen = c.frozen ∧ c'.inputs = c.inputs ∧
      c'.sources = Function.update c.sources pt v ∧
      ∀ i en, c.cache i = some en → ∃ o, c'.cache i = some { en with outOfDate := o } ∧
        (o = true ↔ en.outOfDate = true ∨ Covers s en.ticket pt) := by
  obtain ⟨c', e, h1⟩ := fixed_spec h hp v
  refine ⟨c', ?_, h1⟩
  rw [setFixedInput, hp]
  exact e

theorem fresh_port {s : System} {k : Calc V} (hk : Declared s k) {c c' : Context V} {pt : Nat} {v : V}
    (h : Structured s c) (h' : Structured s c') (hf : Fresh k c) (hs : c'.sources = Function.update c.sources pt v)
    (hx : ∀ i en, c.cache i = some en → ∃ o, c'.cache i = some { en with outOfDate := o } ∧
        (o = true ↔ en.outOfDate = true ∨ Covers s en.ticket pt)) : Fresh k c' := by
  refine fresh_changed hk h h' hf fun i en hen => ?_
  obtain ⟨o, h2, h3⟩ := hx i en hen
  refine ⟨o, h2, fun ho => ?_⟩
  have hno : ¬ (en.outOfDate = true ∨ Covers s en.ticket pt) := by
    rw [← h3, ho]
    simp
  rw [not_or] at hno
  refine ⟨by simpa using hno.1, fun t ht => ?_⟩
  rw [hs, Function.update_of_ne]
  rintro rfl
  exact hno.2 ht

/-- Evaluation leaves the trackers alone. -/
theorem Structured.kept {s : System} {c c' : Context V} (h : Structured s c) (hk : Kept c c') : Structured s c' := by
  have hg : c'.graph = c.graph := (congrArg Context.graph hk.rest :)
  refine h.same (fun t => by simp [skel, hg]) (congrArg Context.size hk.rest :)
    (le_of_eq (congrArg Context.event hk.rest :).symm) ?_ (congrArg Context.discrete hk.rest :)
    (congrArg Context.abstract hk.rest :) (congrArg Context.numeric hk.rest :)
    (congrArg Context.abstractParams hk.rest :) (congrArg Context.inputs hk.rest :) ?_
  · intro t tr ht
    rw [hg] at ht
    rw [(congrArg Context.event hk.rest :)]
    exact h.events t tr ht
  · intro i
    have := congrArg (Option.map Prod.fst) (hk.entries i)
    simpa [Function.comp_def] using this

/-- Changing flags of entries. -/
theorem Structured.flags {s : System} {c : Context V} (h : Structured s c) (f : Nat → Entry V → Entry V)
    (hf : ∀ i en, (f i en).ticket = en.ticket) :
    Structured s { c with cache := fun i => (c.cache i).map (f i) } := by
  refine h.same (fun _ => rfl) rfl (le_refl _) h.events rfl rfl rfl rfl rfl ?_
  intro i
  dsimp only
  cases c.cache i with
  | none => rfl
  | some en => simp [hf]

theorem Fresh.flags {k : Calc V} {c : Context V} (h : Fresh k c) (f : Nat → Entry V → Entry V)
    (hf : ∀ i en, (f i en).outOfDate = false → en.outOfDate = false ∧ (f i en).value = en.value) :
    Fresh k { c with cache := fun i => (c.cache i).map (f i) } := by
  intro i en' hen' ho
  simp only [Option.map_eq_some_iff] at hen'
  obtain ⟨en, hen, rfl⟩ := hen'
  obtain ⟨h1, h2⟩ := hf i en ho
  rw [h2]
  exact h i en hen h1

theorem mapEntry_eq (i : Nat) (f : Entry V → Entry V) (c : Context V) :
    c.mapEntry i f = { c with cache := fun j => (c.cache j).map (if j = i then f else id) } := by
  unfold Context.mapEntry
  congr 1
  funext j
  split <;> simp

theorem Structured.clone {s : System} {c : Context V} (h : Structured s c) : Structured s (Cache.clone c) := by
  refine h.same (fun t => ?_) rfl (le_refl _) ?_ rfl rfl rfl rfl rfl fun _ => rfl
  · simp only [skel, Cache.clone, Option.map_map]
    rfl
  · intro t tr ht
    simp only [Cache.clone, Option.map_eq_some_iff] at ht
    obtain ⟨tr0, _, rfl⟩ := ht
    exact h.start

/-- The contexts which programs can reach. -/
structure Good (s : System) (k : Calc V) (c : Context V) : Prop where
  structured : Structured s c
  fresh : Fresh k c

theorem Good.run {s : System} {k : Calc V} (hk : Declared s k) {c : Context V} (h : Good s k c) (n : Nat) (op : Op V) :
    Good s k (op.run k n c) := by
  cases op with
  | modify a w =>
    obtain ⟨c', e, h1, _⟩ := modify_spec h.structured a w
    simp only [Op.run, e]
    exact ⟨h1, fresh_modify hk h.structured h.fresh e⟩
  | fixInputPort p v =>
    cases hp : c.inputs[p]? with
    | none =>
      simp only [Op.run, fixInputPort, hp]
      exact h
    | some x =>
      obtain ⟨pt, o⟩ := x
      obtain ⟨c', e, h1, _, _, h4, h5⟩ := fixInputPort_spec h.structured hp v
      simp only [Op.run, e]
      exact ⟨h1, fresh_port hk h.structured h1 h.fresh h4 h5⟩
  | setFixedInput p v =>
    cases hp : c.inputs[p]? with
    | none =>
      simp only [Op.run, setFixedInput, hp]
      exact h
    | some x =>
      obtain ⟨pt, o⟩ := x
      cases o with
      | none =>
        simp only [Op.run, setFixedInput, hp]
        exact h
      | some vt =>
        obtain ⟨c', e, h1, _, _, h4, h5⟩ := setFixedInput_spec h.structured hp v
        simp only [Op.run, e]
        exact ⟨h1, fresh_port hk h.structured h1 h.fresh h4 h5⟩
  | eval i =>
    have := evalEntry_spec k n i c h.fresh
    exact ⟨h.structured.kept this.kept, this.fresh⟩
  | disableCaching =>
    exact ⟨h.structured.flags (fun _ en => { en with disabled := true }) fun _ _ => rfl,
      h.fresh.flags (fun _ en => { en with disabled := true }) fun _ _ ho => ⟨ho, rfl⟩⟩
  | enableCaching =>
    exact ⟨h.structured.flags (fun _ en => { en with disabled := false }) fun _ _ => rfl,
      h.fresh.flags (fun _ en => { en with disabled := false }) fun _ _ ho => ⟨ho, rfl⟩⟩
  | setAllOutOfDate =>
    exact ⟨h.structured.flags (fun _ en => { en with outOfDate := true }) fun _ _ => rfl,
      h.fresh.flags (fun _ en => { en with outOfDate := true }) fun _ _ ho => by cases ho⟩
  | disableEntry i =>
    simp only [Op.run, Cache.disableEntry, mapEntry_eq]
    refine ⟨h.structured.flags _ fun j en => ?_, h.fresh.flags _ fun j en ho => ?_⟩
    · split <;> rfl
    · split at ho
      · exact ⟨ho, by rw [if_pos (by assumption)]⟩
      · exact ⟨ho, by rw [if_neg (by assumption)]; rfl⟩
  | enableEntry i =>
    simp only [Op.run, Cache.enableEntry, mapEntry_eq]
    refine ⟨h.structured.flags _ fun j en => ?_, h.fresh.flags _ fun j en ho => ?_⟩
    · split <;> rfl
    · split at ho
      · exact ⟨ho, by rw [if_pos (by assumption)]⟩
      · exact ⟨ho, by rw [if_neg (by assumption)]; rfl⟩
  | freeze =>
    exact ⟨h.structured.same (fun _ => rfl) rfl (le_refl _) h.structured.events rfl rfl rfl rfl rfl fun _ => rfl, h.fresh⟩
  | unfreeze =>
    exact ⟨h.structured.same (fun _ => rfl) rfl (le_refl _) h.structured.events rfl rfl rfl rfl rfl fun _ => rfl, h.fresh⟩
  | clone => exact ⟨h.structured.clone, h.fresh⟩

theorem good_make {ds : List Decl} {s : System} {alloc src : Nat → V} {c : Context V} (k : Calc V)
    (hd : declareAll ds = .ok s) (hc : makeContext alloc src s = .ok c) : Good s k c :=
  ⟨structured_make (wellformed hd) hc, fresh_make k hc⟩

theorem Good.history {s : System} {k : Calc V} (hk : Declared s k) (n : Nat) (ops : List (Op V)) :
    ∀ {c : Context V}, Good s k c → Good s k (Cache.history k n ops c) := by
  induction ops with
  | nil => exact fun h => h
  | cons op ops ih => exact fun h => ih (h.run hk n op)

end Maliput.Cache
