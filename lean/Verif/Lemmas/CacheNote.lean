import Mathlib.Data.Finset.Card
import Mathlib.Data.Finset.Range
import Mathlib.Algebra.Order.Ring.Int
import Mathlib.Logic.Relation
import Mathlib.Tactic.Common
import Verif.Model.Cache

set_option autoImplicit false
set_option linter.unusedSectionVars false

/-!
What a sweep of change notifications does: it reaches everything downstream of the changed values and nothing else.
-/
namespace Maliput.Cache

open Maliput.RouteGraph (Stop)

variable {V : Type}

/-- The part of a tracker that notifications leave alone. -/
def skel (c : Context V) (t : Nat) : Option (List Nat × Option Nat) :=
  (c.graph t).map fun tr => (tr.subscribers, tr.cacheIndex)

/-- The tracker of `b` subscribes to that of `a`. -/
def Edge (c : Context V) (a b : Nat) : Prop := ∃ p, skel c a = some p ∧ b ∈ p.1

/-- A change of `a` is a change of `b`. -/
def Upstream (c : Context V) : Nat → Nat → Prop := Relation.ReflTransGen (Edge c)

/-- The tracker has heard of the change event. -/
def Marked (e : Int) (c : Context V) (t : Nat) : Prop := ∃ tr, c.graph t = some tr ∧ tr.last = e

/-- The cache entry of the tracker is out of date. -/
def Inval (c : Context V) (t : Nat) : Prop :=
  ∀ tr i en, c.graph t = some tr → tr.cacheIndex = some i → c.cache i = some en → en.outOfDate = true

/-- Everything but the last change events and the flags. -/
structure Noted (c c' : Context V) : Prop where
  skels : ∀ t, skel c' t = skel c t
  cache : ∀ i, c'.cache i = c.cache i ∨
    ∃ en, c.cache i = some en ∧ c'.cache i = some { en with outOfDate := true }
  size : c'.size = c.size
  frozen : c'.frozen = c.frozen
  event : c'.event = c.event
  discrete : c'.discrete = c.discrete
  abstract : c'.abstract = c.abstract
  numeric : c'.numeric = c.numeric
  abstractParams : c'.abstractParams = c.abstractParams
  inputs : c'.inputs = c.inputs
  outputs : c'.outputs = c.outputs
  sources : c'.sources = c.sources

theorem Noted.refl (c : Context V) : Noted c c :=
  ⟨fun _ => rfl, fun _ => .inl rfl, rfl, rfl, rfl, rfl, rfl, rfl, rfl, rfl, rfl, rfl⟩

theorem Noted.trans {c c1 c2 : Context V} (h : Noted c c1) (g : Noted c1 c2) : Noted c c2 where
  skels t := (g.skels t).trans (h.skels t)
  cache i := by
    rcases h.cache i with h | ⟨en, h, h'⟩ <;> rcases g.cache i with g | ⟨en', g, g'⟩
    · exact .inl (g.trans h)
    · exact .inr ⟨en', h ▸ g, g'⟩
    · exact .inr ⟨en, h, g.trans h'⟩
    · refine .inr ⟨en, h, ?_⟩
      rw [h'] at g
      obtain rfl := Option.some.inj g
      exact g'
  size := g.size.trans h.size
  frozen := g.frozen.trans h.frozen
  event := g.event.trans h.event
  discrete := g.discrete.trans h.discrete
  abstract := g.abstract.trans h.abstract
  numeric := g.numeric.trans h.numeric
  abstractParams := g.abstractParams.trans h.abstractParams
  inputs := g.inputs.trans h.inputs
  outputs := g.outputs.trans h.outputs
  sources := g.sources.trans h.sources

theorem edge_congr {c c' : Context V} (h : ∀ t, skel c' t = skel c t) (a b : Nat) : Edge c' a b ↔ Edge c a b := by
  simp only [Edge, h]

theorem upstream_congr {c c' : Context V} (h : ∀ t, skel c' t = skel c t) (a b : Nat) :
    Upstream c' a b ↔ Upstream c a b := by
  have : Edge c' = Edge c := by
    funext a b
    exact propext (edge_congr h a b)
  simp only [Upstream, this]

/-- What a sweep from the given trackers does. -/
structure Sweep (e : Int) (c c' : Context V) (roots : List Nat) : Prop where
  noted : Noted c c'
  keeps : ∀ t, Marked e c t → Marked e c' t
  starts : ∀ t ∈ roots, Marked e c' t
  closed : ∀ u, Marked e c' u → ¬ Marked e c u → (∀ b, Edge c u b → Marked e c' b) ∧ Inval c' u
  reach : ∀ u, Marked e c' u → ¬ Marked e c u → ∃ t ∈ roots, Upstream c t u
  flags : ∀ i en', c'.cache i = some en' → c'.cache i ≠ c.cache i →
    ∃ u p, Marked e c' u ∧ ¬ Marked e c u ∧ skel c u = some p ∧ p.2 = some i
  lasts : ∀ t tr, c'.graph t = some tr → tr.last = e ∨ c.graph t = some tr

theorem Sweep.refl (e : Int) (c : Context V) : Sweep e c c [] :=
  ⟨Noted.refl c, fun _ h => h, by simp, fun _ h h' => absurd h h', fun _ h h' => absurd h h',
    fun _ _ _ h => absurd rfl h, fun _ _ h => .inr h⟩

/-- Marks of entries stay. -/
theorem Noted.inval {c c' : Context V} (h : Noted c c') {t : Nat} (hi : Inval c t) : Inval c' t := by
  intro tr i en hg hc hen
  have hs : skel c' t = some (tr.subscribers, tr.cacheIndex) := by simp [skel, hg]
  rw [h.skels] at hs
  simp only [skel, Option.map_eq_some_iff, Prod.mk.injEq] at hs
  obtain ⟨tr0, h0, _, h2⟩ := hs
  rcases h.cache i with h' | ⟨en0, _, h'⟩
  · exact hi tr0 i en h0 (h2.trans hc) (h' ▸ hen)
  · rw [h'] at hen
    obtain rfl := Option.some.inj hen
    rfl

theorem Sweep.trans {e : Int} {c c1 c2 : Context V} {r1 r2 : List Nat} (h : Sweep e c c1 r1) (g : Sweep e c1 c2 r2) :
    Sweep e c c2 (r1 ++ r2) where
  noted := h.noted.trans g.noted
  keeps t ht := g.keeps t (h.keeps t ht)
  starts t ht := by
    rcases List.mem_append.mp ht with ht | ht
    · exact g.keeps t (h.starts t ht)
    · exact g.starts t ht
  closed u hu hn := by
    by_cases h1 : Marked e c1 u
    · obtain ⟨a, b⟩ := h.closed u h1 hn
      exact ⟨fun b' hb => g.keeps _ (a b' hb), g.noted.inval b⟩
    · obtain ⟨a, b⟩ := g.closed u hu h1
      exact ⟨fun b' hb => a b' ((edge_congr h.noted.skels u b').mpr hb), b⟩
  reach u hu hn := by
    by_cases h1 : Marked e c1 u
    · obtain ⟨t, ht, hr⟩ := h.reach u h1 hn
      exact ⟨t, List.mem_append_left _ ht, hr⟩
    · obtain ⟨t, ht, hr⟩ := g.reach u hu h1
      exact ⟨t, List.mem_append_right _ ht, (upstream_congr h.noted.skels t u).mp hr⟩
  flags i en' hen hne := by
    by_cases h1 : c2.cache i = c1.cache i
    · rw [h1] at hen hne
      obtain ⟨u, p, hu, hn, hs, hp⟩ := h.flags i en' hen hne
      exact ⟨u, p, g.keeps u hu, hn, hs, hp⟩
    · obtain ⟨u, p, hu, hn, hs, hp⟩ := g.flags i en' hen h1
      exact ⟨u, p, hu, fun h' => hn (h.keeps u h'), (h.noted.skels u) ▸ hs, hp⟩
  lasts t tr ht := by
    rcases g.lasts t tr ht with h1 | h1
    · exact .inl h1
    · exact h.lasts t tr h1

open Classical in
/-- The trackers that have not heard of the change event. -/
noncomputable def unmarked (e : Int) (c : Context V) : Finset Nat :=
  (Finset.range c.size).filter fun t => ¬ Marked e c t

/-- Every tracker is within the graph and every subscriber exists. -/
structure Closed (c : Context V) : Prop where
  size : ∀ t p, skel c t = some p → t < c.size
  subs : ∀ a b, Edge c a b → ∃ p, skel c b = some p

theorem Closed.congr {c c' : Context V} (hs : ∀ t, skel c' t = skel c t) (hz : c'.size = c.size) (h : Closed c) :
    Closed c' where
  size t p ht := by rw [hz]; exact h.size t p ((hs t) ▸ ht)
  subs a b hab := by
    obtain ⟨p, hp⟩ := h.subs a b ((edge_congr hs a b).mp hab)
    exact ⟨p, (hs b).trans hp⟩

theorem skel_some {c : Context V} {t : Nat} {p : List Nat × Option Nat} (h : skel c t = some p) :
    ∃ tr, c.graph t = some tr ∧ (tr.subscribers, tr.cacheIndex) = p := by
  simpa [skel, Option.map_eq_some_iff] using h

theorem unmarked_mono {e : Int} {c c' : Context V} (hz : c'.size = c.size)
    (h : ∀ t, Marked e c t → Marked e c' t) : (unmarked e c').card ≤ (unmarked e c).card := by
  apply Finset.card_le_card
  intro t
  simp only [unmarked, Finset.mem_filter, Finset.mem_range, hz]
  exact fun ⟨a, b⟩ => ⟨a, fun hm => b (h t hm)⟩

/-- The context after a tracker hears of a change: before its subscribers do. -/
theorem mark_spec {e : Int} {c : Context V} {t : Nat} {tr : Tracker} (hg : c.graph t = some tr) (hl : tr.last ≠ e) :
    let c1 := markOutOfDate tr.cacheIndex (c.setTracker t { tr with last := e })
    Noted c c1 ∧ (∀ u, Marked e c1 u ↔ Marked e c u ∨ u = t) ∧ ¬ Marked e c t ∧ Inval c1 t ∧
      (∀ i en', c1.cache i = some en' → c1.cache i ≠ c.cache i → tr.cacheIndex = some i) ∧
      (∀ u tr', c1.graph u = some tr' → tr'.last = e ∨ c.graph u = some tr') := by
  intro c1
  have hgraph : c1.graph = Function.update c.graph t (some { tr with last := e }) := by
    simp only [c1, markOutOfDate]
    split
    · rfl
    · split <;> rfl
  have hcache : ∀ i, c1.cache i = c.cache i ∨
      ∃ en, c.cache i = some en ∧ c1.cache i = some { en with outOfDate := true } ∧ tr.cacheIndex = some i := by
    intro i
    simp only [c1, markOutOfDate]
    split
    · exact .inl rfl
    · rename_i j hj
      split
      · exact .inl rfl
      · rename_i en hen
        by_cases hij : i = j
        · subst hij
          exact .inr ⟨en, hen, by simp [Context.setEntry], hj⟩
        · exact .inl (by simp [Context.setEntry, Context.setTracker, hij])
  refine ⟨?_, ?_, ?_, ?_, ?_, ?_⟩
  · have hrest : c1.size = c.size ∧ c1.frozen = c.frozen ∧ c1.event = c.event ∧ c1.discrete = c.discrete ∧
        c1.abstract = c.abstract ∧ c1.numeric = c.numeric ∧ c1.abstractParams = c.abstractParams ∧
        c1.inputs = c.inputs ∧ c1.outputs = c.outputs ∧ c1.sources = c.sources := by
      simp only [c1, markOutOfDate]
      split
      · simp [Context.setTracker]
      · split <;> simp [Context.setTracker, Context.setEntry]
    obtain ⟨a1, a2, a3, a4, a5, a6, a7, a8, a9, a10⟩ := hrest
    refine ⟨?_, ?_, a1, a2, a3, a4, a5, a6, a7, a8, a9, a10⟩
    · intro u
      simp only [skel, hgraph]
      by_cases hu : u = t
      · subst hu
        simp [hg]
      · simp [Function.update_of_ne hu]
    · intro i
      rcases hcache i with h | ⟨en, h, h', _⟩
      · exact .inl h
      · exact .inr ⟨en, h, h'⟩
  · intro u
    simp only [Marked, hgraph]
    by_cases hu : u = t
    · subst hu
      simp
    · simp [hu]
  · rintro ⟨tr', h, h'⟩
    rw [hg] at h
    obtain rfl := Option.some.inj h
    exact hl h'
  · intro tr' i en h1 h2 h3
    rw [hgraph, Function.update_self] at h1
    obtain rfl := Option.some.inj h1
    have h2 : tr.cacheIndex = some i := h2
    simp only [c1, markOutOfDate, h2] at h3
    split at h3
    · rename_i hnone
      simp [hnone] at h3
    · simp only [Context.setEntry, Function.update_self, Option.some.injEq] at h3
      rw [← h3]
  · intro i en' _ hne
    rcases hcache i with h | ⟨_, _, _, h⟩
    · exact absurd h hne
    · exact h
  · intro u tr' h
    rw [hgraph] at h
    by_cases hu : u = t
    · subst hu
      rw [Function.update_self] at h
      obtain rfl := Option.some.inj h
      exact .inl rfl
    · rw [Function.update_of_ne hu] at h
      exact .inr h

/-- A tracker hears of a change and so do its subscribers. -/
theorem Sweep.step {e : Int} {c c2 : Context V} {t : Nat} {tr : Tracker} (hg : c.graph t = some tr)
    (hl : tr.last ≠ e)
    (h : Sweep e (markOutOfDate tr.cacheIndex (c.setTracker t { tr with last := e })) c2 tr.subscribers) :
    Sweep e c c2 [t] := by
  obtain ⟨m1, m2, m3, m4, m5, m6⟩ := mark_spec hg hl
  generalize markOutOfDate tr.cacheIndex (c.setTracker t { tr with last := e }) = c1 at *
  have hedge : ∀ b, Edge c t b ↔ b ∈ tr.subscribers := by
    intro b
    simp [Edge, skel, hg]
  refine ⟨m1.trans h.noted, fun u hu => h.keeps u ((m2 u).mpr (.inl hu)), ?_, ?_, ?_, ?_, ?_⟩
  · intro u hu
    obtain rfl := List.mem_singleton.mp hu
    exact h.keeps u ((m2 u).mpr (.inr rfl))
  · intro u hu hn
    by_cases hut : u = t
    · subst hut
      exact ⟨fun b hb => h.starts b ((hedge b).mp hb), h.noted.inval m4⟩
    · have hn1 : ¬ Marked e c1 u := fun h' => ((m2 u).mp h').elim hn hut
      obtain ⟨a, b⟩ := h.closed u hu hn1
      exact ⟨fun b' hb => a b' ((edge_congr m1.skels u b').mpr hb), b⟩
  · intro u hu hn
    refine ⟨t, List.mem_singleton_self t, ?_⟩
    by_cases hut : u = t
    · subst hut
      exact .refl
    · have hn1 : ¬ Marked e c1 u := fun h' => ((m2 u).mp h').elim hn hut
      obtain ⟨b, hb, hr⟩ := h.reach u hu hn1
      exact .head ((hedge b).mpr hb) ((upstream_congr m1.skels b u).mp hr)
  · intro i en' hen hne
    by_cases h1 : c2.cache i = c1.cache i
    · rw [h1] at hen hne
      refine ⟨t, (tr.subscribers, tr.cacheIndex), h.keeps t ((m2 t).mpr (.inr rfl)), m3, by simp [skel, hg], ?_⟩
      exact m5 i en' hen hne
    · obtain ⟨u, p, hu, hn, hs, hp⟩ := h.flags i en' hen h1
      exact ⟨u, p, hu, fun h' => hn ((m2 u).mpr (.inl h')), (m1.skels u) ▸ hs, hp⟩
  · intro u tr' hu
    rcases h.lasts u tr' hu with h' | h'
    · exact .inl h'
    · exact m6 u tr' h'

/-- A list of sweeps. -/
theorem Sweep.fold {e : Int} {f : Context V → Nat → Except Stop (Context V)} {m : Nat}
    (hf : ∀ c t, Closed c → (∃ p, skel c t = some p) → (unmarked e c).card ≤ m →
      ∃ c', f c t = .ok c' ∧ Sweep e c c' [t]) (ts : List Nat) :
    ∀ c : Context V, Closed c → (∀ t ∈ ts, ∃ p, skel c t = some p) → (unmarked e c).card ≤ m →
      ∃ c', ts.foldlM f c = .ok c' ∧ Sweep e c c' ts := by
  induction ts with
  | nil => exact fun c _ _ _ => ⟨c, rfl, Sweep.refl e c⟩
  | cons t ts ih =>
    intro c hc hts hm
    obtain ⟨c1, h1, s1⟩ := hf c t hc (hts t List.mem_cons_self) hm
    obtain ⟨c2, h2, s2⟩ := ih c1 (hc.congr s1.noted.skels s1.noted.size)
      (fun u hu => by
        obtain ⟨p, hp⟩ := hts u (List.mem_cons_of_mem t hu)
        exact ⟨p, (s1.noted.skels u).trans hp⟩)
      ((unmarked_mono s1.noted.size s1.keeps).trans hm)
    refine ⟨c2, ?_, s1.trans s2⟩
    rw [List.foldlM_cons, h1]
    exact h2

theorem notePrerequisiteChange_sweep (e : Int) (n : Nat) : ∀ (c : Context V) (t : Nat), Closed c →
    (∃ p, skel c t = some p) → (unmarked e c).card ≤ n →
    ∃ c', notePrerequisiteChange (n + 1) e t c = .ok c' ∧ Sweep e c c' [t] := by
  induction n with
  | zero =>
    intro c t hc ⟨p, hp⟩ hn
    obtain ⟨tr, hg, _⟩ := skel_some hp
    have hm : Marked e c t := by
      by_contra hm
      have : t ∈ unmarked e c := by simp [unmarked, hm, hc.size t p hp]
      rw [Nat.le_zero, Finset.card_eq_zero] at hn
      simp [hn] at this
    have hlast : tr.last = e := by
      obtain ⟨tr', h, h'⟩ := hm
      rw [hg] at h
      obtain rfl := Option.some.inj h
      exact h'
    refine ⟨c, by simp [notePrerequisiteChange, hg, hlast], ?_⟩
    have := Sweep.refl e c
    exact ⟨this.noted, this.keeps, by simpa using hm, this.closed, fun _ h h' => absurd h h', this.flags, this.lasts⟩
  | succ n ih =>
    intro c t hc ⟨p, hp⟩ hn
    obtain ⟨tr, hg, _⟩ := skel_some hp
    by_cases hlast : tr.last = e
    · refine ⟨c, by simp [notePrerequisiteChange, hg, hlast], ?_⟩
      have := Sweep.refl e c
      exact ⟨this.noted, this.keeps, by simpa using ⟨tr, hg, hlast⟩, this.closed, fun _ h h' => absurd h h',
        this.flags, this.lasts⟩
    · obtain ⟨m1, m2, m3, _⟩ := mark_spec hg hlast
      have hcard : (unmarked e (markOutOfDate tr.cacheIndex (c.setTracker t { tr with last := e }))).card ≤ n := by
        apply Nat.le_of_lt_succ
        apply lt_of_lt_of_le _ hn
        apply Finset.card_lt_card
        refine ⟨?_, ?_⟩
        · intro u
          simp only [unmarked, Finset.mem_filter, Finset.mem_range, m1.size]
          exact fun ⟨a, b⟩ => ⟨a, fun hm => b ((m2 u).mpr (.inl hm))⟩
        · intro hsub
          have : t ∈ unmarked e c := by simp [unmarked, m3, hc.size t p hp]
          have := hsub this
          simp only [unmarked, Finset.mem_filter] at this
          exact this.2 ((m2 t).mpr (.inr rfl))
      obtain ⟨c2, h2, s2⟩ := Sweep.fold (fun c t h1 h2 h3 => ih c t h1 h2 h3) tr.subscribers _
        (hc.congr m1.skels m1.size)
        (fun b hb => by
          obtain ⟨q, hq⟩ := hc.subs t b ⟨(tr.subscribers, tr.cacheIndex), by simp [skel, hg], hb⟩
          exact ⟨q, (m1.skels b).trans hq⟩) hcard
      refine ⟨c2, ?_, Sweep.step hg hlast s2⟩
      rw [notePrerequisiteChange]
      simp only [hg, hlast, if_false]
      exact h2

theorem noteValueChange_sweep (e : Int) (c : Context V) (t : Nat) (hc : Closed c)
    (ht : ∃ l, skel c t = some (l, none)) : ∃ c', noteValueChange e t c = .ok c' ∧ Sweep e c c' [t] := by
  obtain ⟨l, hp⟩ := ht
  obtain ⟨tr, hg, htr⟩ := skel_some hp
  have hci : tr.cacheIndex = none := by simpa using congrArg Prod.snd htr
  by_cases hlast : tr.last = e
  · refine ⟨c, by simp [noteValueChange, hg, hlast], ?_⟩
    have := Sweep.refl e c
    exact ⟨this.noted, this.keeps, by simpa using ⟨tr, hg, hlast⟩, this.closed, fun _ h h' => absurd h h',
      this.flags, this.lasts⟩
  · obtain ⟨m1, m2, m3, _⟩ := mark_spec hg hlast
    have hcard : ∀ c : Context V, (unmarked e c).card ≤ c.size := by
      classical
      intro c
      have := Finset.card_le_card (show unmarked e c ⊆ Finset.range c.size by
        unfold unmarked
        exact Finset.filter_subset _ _)
      simpa using this
    have hfold := Sweep.fold (e := e) (m := c.size) (f := fun c s => notePrerequisiteChange (c.size + 1) e s c)
      (fun c t h1 h2 _ => notePrerequisiteChange_sweep e c.size c t h1 h2 (hcard c)) tr.subscribers
      (markOutOfDate tr.cacheIndex (c.setTracker t { tr with last := e }))
      (hc.congr m1.skels m1.size)
      (fun b hb => by
        obtain ⟨q, hq⟩ := hc.subs t b ⟨(tr.subscribers, tr.cacheIndex), by simp [skel, hg], hb⟩
        exact ⟨q, (m1.skels b).trans hq⟩) ((hcard _).trans (le_of_eq m1.size))
    obtain ⟨c2, h2, s2⟩ := hfold
    refine ⟨c2, ?_, Sweep.step hg hlast s2⟩
    have hid : markOutOfDate tr.cacheIndex (c.setTracker t { tr with last := e }) =
        c.setTracker t { tr with last := e } := by simp only [hci, markOutOfDate]
    rw [hid] at h2
    simp only [noteValueChange, hg, hlast, if_false]
    exact h2

/-- Nothing has heard of the next change event. -/
def Events (c : Context V) : Prop := ∀ t tr, c.graph t = some tr → tr.last ≤ c.event

/-- The trackers of the entries. -/
def Tracked (c : Context V) : Prop :=
  ∀ i en, c.cache i = some en → ∃ l, skel c en.ticket = some (l, some i)

/-- Every cache index of a tracker is that of an entry with its ticket. -/
def Indexed (c : Context V) : Prop :=
  ∀ t l i, skel c t = some (l, some i) → ∃ en, c.cache i = some en ∧ en.ticket = t

theorem noteChange_spec (c : Context V) (ts : List Nat) (hc : Closed c) (he : Events c) (ht : Tracked c)
    (hx : Indexed c) (hts : ∀ t ∈ ts, ∃ l, skel c t = some (l, none)) :
    ∃ c', noteChange ts c = .ok c' ∧ Noted { c with event := c.event + 1 } c' ∧ Events c' ∧
      ∀ i en, c.cache i = some en → ∃ o, c'.cache i = some { en with outOfDate := o } ∧
        (o = true ↔ en.outOfDate = true ∨ ∃ t ∈ ts, Upstream c t en.ticket) := by
  set c0 : Context V := { c with event := c.event + 1 } with hc0
  have hc0' : Closed c0 := Closed.congr (c := c) (c' := c0) (fun _ => rfl) rfl hc
  -- the sweep
  have hfold : ∀ (ts : List Nat) (c1 : Context V), Closed c1 → c1.event = c.event + 1 →
      (∀ t ∈ ts, ∃ l, skel c1 t = some (l, none)) →
      ∃ c', ts.foldlM (fun c t => noteValueChange c.event t c) c1 = .ok c' ∧ Sweep (c.event + 1) c1 c' ts := by
    intro ts
    induction ts with
    | nil => exact fun c1 _ _ _ => ⟨c1, rfl, Sweep.refl _ c1⟩
    | cons t ts ih =>
      intro c1 h1 h2 h3
      obtain ⟨c2, e2, s2⟩ := noteValueChange_sweep (c.event + 1) c1 t h1 (h3 t List.mem_cons_self)
      obtain ⟨c3, e3, s3⟩ := ih c2 (h1.congr s2.noted.skels s2.noted.size) (s2.noted.event.trans h2)
        (fun u hu => by
          obtain ⟨p, hp⟩ := h3 u (List.mem_cons_of_mem t hu)
          exact ⟨p, (s2.noted.skels u).trans hp⟩)
      refine ⟨c3, ?_, s2.trans s3⟩
      rw [List.foldlM_cons, h2, e2]
      exact e3
  obtain ⟨c', h', s⟩ := hfold ts c0 hc0' rfl hts
  have hnone : ∀ u, ¬ Marked (c.event + 1) c0 u := by
    rintro u ⟨tr, hg, hl⟩
    have := he u tr hg
    omega
  have hmark : ∀ u, Marked (c.event + 1) c' u ↔ ∃ t ∈ ts, Upstream c t u := by
    intro u
    constructor
    · intro hu
      exact s.reach u hu (hnone u)
    · rintro ⟨t, ht, hr⟩
      unfold Upstream at hr
      induction hr with
      | refl => exact s.starts t ht
      | tail _ hab ih => exact (s.closed _ ih (hnone _)).1 _ hab
  refine ⟨c', h', s.noted, ?_, ?_⟩
  · intro t tr hg
    rw [s.noted.event]
    rcases s.lasts t tr hg with h | h
    · exact le_of_eq h
    · have := he t tr h
      simp only [hc0]
      omega
  · intro i en hen
    have hen0 : c0.cache i = some en := hen
    have hback : ∀ en', c'.cache i = some en' → c'.cache i ≠ c0.cache i → ∃ t ∈ ts, Upstream c t en.ticket := by
      intro en' h1 h2
      obtain ⟨u, p, hu, _, hs, hp⟩ := s.flags i en' h1 h2
      obtain ⟨en2, h3, h4⟩ := hx u p.1 i (by
        have hs' : skel c u = some p := hs
        rw [hs', ← hp])
      rw [hen] at h3
      obtain rfl := Option.some.inj h3
      rw [h4]
      exact (hmark u).mp hu
    have hforth : (∃ t ∈ ts, Upstream c t en.ticket) → ∀ en', c'.cache i = some en' → en'.outOfDate = true := by
      intro hup en' hen'
      have hm := (hmark en.ticket).mpr hup
      obtain ⟨l, hl⟩ := ht i en hen
      have hl' : skel c' en.ticket = some (l, some i) := (s.noted.skels en.ticket).trans hl
      obtain ⟨tr, hg, htr⟩ := skel_some hl'
      exact (s.closed _ hm (hnone _)).2 tr i en' hg (by simpa using congrArg Prod.snd htr) hen'
    rcases s.noted.cache i with h | ⟨en1, h1, h2⟩
    · refine ⟨en.outOfDate, by rw [h, hen0], ⟨.inl, ?_⟩⟩
      rintro (h1 | h1)
      · exact h1
      · exact hforth h1 en (by rw [h, hen0])
    · rw [hen0] at h1
      obtain rfl := Option.some.inj h1
      refine ⟨true, h2, ⟨fun _ => ?_, fun _ => rfl⟩⟩
      by_cases ho : en.outOfDate = true
      · exact .inl ho
      · refine .inr (hback _ h2 ?_)
        rw [h2, hen0]
        intro h3
        have := congrArg (fun o => o.map Entry.outOfDate) h3
        simp only [Option.map_some, Option.some.injEq] at this
        exact ho this.symm

end Maliput.Cache
