import Verif.Lemmas.CacheNote
import Verif.Lemmas.CacheEval
import Verif.Lemmas.Monad

set_option autoImplicit false
set_option linter.unusedSectionVars false

/-!
The trackers and cache entries which making a context wires.
-/
namespace Maliput.Cache

open Maliput.RouteGraph (Stop)

variable {V : Type}

/-- The tracker exists after the steps. -/
def Makes (ws : List Wire) (t : Nat) : Prop := .create t ∈ ws ∨ ∃ i d, .entry i t d ∈ ws

/-- The context that the steps make. -/
structure Built (alloc : Nat → V) (ws : List Wire) (c : Context V) : Prop where
  size : ∀ t p, skel c t = some p → t < c.size
  edge : ∀ a b, Edge c a b ↔ .subscribe b a ∈ ws
  ends : ∀ a b, .subscribe b a ∈ ws → (∃ p, skel c a = some p) ∧ ∃ p, skel c b = some p
  made : ∀ t, (∃ p, skel c t = some p) ↔ Makes ws t
  index : ∀ t i, (∃ l, skel c t = some (l, some i)) ↔ ∃ d, .entry i t d ∈ ws
  cache : ∀ i en, c.cache i = some en ↔ ∃ t d, .entry i t d ∈ ws ∧ en = ⟨t, alloc i, 1, true, d⟩
  last : ∀ t tr, c.graph t = some tr → tr.last = -1

theorem skel_setTracker (c : Context V) (t : Nat) (tr : Tracker) (u : Nat) :
    skel (c.setTracker t tr) u = if u = t then some (tr.subscribers, tr.cacheIndex) else skel c u := by
  by_cases h : u = t
  · subst h
    simp [skel, Context.setTracker]
  · simp [skel, Context.setTracker, h]

theorem skel_none {c : Context V} {t : Nat} : skel c t = none ↔ c.graph t = none := by
  simp [skel]

theorem Built.create {alloc : Nat → V} {ws : List Wire} {c c' : Context V} {t : Nat} (h : Built alloc ws c)
    (hc : createTracker t none c = .ok c') : Built alloc (ws ++ [.create t]) c' := by
  rw [createTracker] at hc
  cases hg : c.graph t with
  | some _ => simp [hg] at hc
  | none =>
    simp only [hg, Except.ok.injEq] at hc
    have hsk : ∀ u, skel c' u = if u = t then some ([], none) else skel c u := by
      intro u
      rw [← hc]
      exact skel_setTracker c t _ u
    have ht : skel c t = none := skel_none.mpr hg
    refine ⟨?_, ?_, ?_, ?_, ?_, ?_, ?_⟩
    · intro u p hu
      rw [← hc]
      rw [hsk] at hu
      split at hu
      · subst u
        exact Nat.lt_of_lt_of_le (Nat.lt_succ_self t) (Nat.le_max_right _ _)
      · exact Nat.lt_of_lt_of_le (h.size u p hu) (Nat.le_max_left _ _)
    · intro a b
      rw [List.mem_append, ← h.edge a b]
      simp only [Edge, hsk, List.mem_singleton, reduceCtorEq, or_false]
      by_cases ha : a = t
      · subst ha
        simp [ht]
      · simp [ha]
    · intro a b hab
      have hab : Wire.subscribe b a ∈ ws := by simpa using hab
      obtain ⟨⟨p, hp⟩, q, hq⟩ := h.ends a b hab
      refine ⟨?_, ?_⟩ <;> rw [hsk] <;> split <;> first | exact ⟨_, rfl⟩ | exact ⟨_, hp⟩ | exact ⟨_, hq⟩
    · intro u
      rw [hsk]
      have := h.made u
      unfold Makes at *
      by_cases hu : u = t
      · subst hu
        simp
      · simp [hu, this]
    · intro u i
      rw [hsk]
      have := h.index u i
      by_cases hu : u = t
      · subst hu
        simp [ht] at this ⊢
        exact this
      · simp [hu, this]
    · intro i en
      have hcache : c'.cache = c.cache := by rw [← hc]; rfl
      rw [hcache, h.cache i en]
      simp
    · intro u tr hu
      rw [← hc] at hu
      simp only [Context.setTracker] at hu
      by_cases hut : u = t
      · subst hut
        rw [Function.update_self] at hu
        obtain rfl := Option.some.inj hu
        rfl
      · rw [Function.update_of_ne hut] at hu
        exact h.last u tr hu

theorem subscribe_spec {c c' : Context V} {s p : Nat} (hc : subscribe s p c = .ok c') :
    (∃ q, skel c s = some q) ∧ (∃ l i, skel c p = some (l, i) ∧
      ∀ u, skel c' u = if u = p then some (l ++ [s], i) else skel c u) ∧
      c'.size = c.size ∧ c'.cache = c.cache ∧ (∀ t tr', c'.graph t = some tr' → ∃ tr, c.graph t = some tr ∧ tr'.last = tr.last) ∧
      c' = { c with graph := c'.graph } := by
  rw [subscribe] at hc
  cases hs : c.graph s with
  | none => simp [hs] at hc
  | some trs =>
    rw [hs] at hc
    dsimp only at hc
    set c1 := c.setTracker s { trs with prerequisites := trs.prerequisites ++ [p] } with hc1
    have hsk1 : ∀ u, skel c1 u = skel c u := by
      intro u
      rw [hc1, skel_setTracker]
      split
      · subst u
        simp [skel, hs]
      · rfl
    have hl1 : ∀ t tr', c1.graph t = some tr' → ∃ tr, c.graph t = some tr ∧ tr'.last = tr.last := by
      intro t tr' h
      simp only [hc1, Context.setTracker] at h
      by_cases hts : t = s
      · subst hts
        rw [Function.update_self] at h
        obtain rfl := Option.some.inj h
        exact ⟨trs, hs, rfl⟩
      · rw [Function.update_of_ne hts] at h
        exact ⟨tr', h, rfl⟩
    cases hp : c1.graph p with
    | none => simp [hp] at hc
    | some trp =>
      simp only [hp, Except.ok.injEq] at hc
      refine ⟨⟨_, by simp [skel, hs]; rfl⟩, ⟨trp.subscribers, trp.cacheIndex, ?_, ?_⟩, ?_, ?_, ?_, ?_⟩
      · rw [← hsk1]
        simp [skel, hp]
      · intro u
        rw [← hc, skel_setTracker, hsk1]
      · rw [← hc]; rfl
      · rw [← hc]; rfl
      · intro t tr' h
        rw [← hc] at h
        simp only [Context.setTracker] at h
        by_cases htp : t = p
        · subst htp
          rw [Function.update_self] at h
          obtain rfl := Option.some.inj h
          exact hl1 t trp hp
        · rw [Function.update_of_ne htp] at h
          exact hl1 t tr' h
      · rw [← hc]; rfl

theorem Built.subscribe {alloc : Nat → V} {ws : List Wire} {c c' : Context V} {s p : Nat} (h : Built alloc ws c)
    (hc : Cache.subscribe s p c = .ok c') : Built alloc (ws ++ [.subscribe s p]) c' := by
  obtain ⟨⟨q, hs⟩, ⟨l, j, hp, hsk⟩, hz, hcache, hlast, _⟩ := subscribe_spec hc
  have hex : ∀ u, (∃ r, skel c' u = some r) ↔ ∃ r, skel c u = some r := by
    intro u
    rw [hsk]
    split
    · subst u
      simp [hp]
    · rfl
  refine ⟨?_, ?_, ?_, ?_, ?_, ?_, ?_⟩
  · intro u r hu
    obtain ⟨r', hr⟩ := (hex u).mp ⟨r, hu⟩
    rw [hz]
    exact h.size u r' hr
  · intro a b
    rw [List.mem_append, ← h.edge a b]
    simp only [Edge, hsk, List.mem_singleton, Wire.subscribe.injEq]
    by_cases ha : a = p
    · subst ha
      simp [hp, and_comm]
    · simp [ha]
  · intro a b hab
    rw [hex, hex]
    rcases List.mem_append.mp hab with hab | hab
    · exact h.ends a b hab
    · simp only [List.mem_singleton, Wire.subscribe.injEq] at hab
      obtain ⟨rfl, rfl⟩ := hab
      exact ⟨⟨_, hp⟩, ⟨_, hs⟩⟩
  · intro u
    rw [hex, h.made u]
    simp [Makes]
  · intro u i
    have := h.index u i
    rw [hsk]
    by_cases hu : u = p
    · subst hu
      simpa [hp] using this
    · simpa [hu] using this
  · intro i en
    rw [hcache, h.cache i en]
    simp
  · intro t tr ht
    obtain ⟨tr0, h0, h1⟩ := hlast t tr ht
    rw [h1]
    exact h.last t tr0 h0

theorem Built.entry {alloc : Nat → V} {ws : List Wire} {c c' : Context V} {i t : Nat} {d : Bool} (h : Built alloc ws c)
    (hc : wire alloc (.entry i t d) c = .ok c') : Built alloc (ws ++ [.entry i t d]) c' := by
  rw [wire] at hc
  cases hi : c.cache i with
  | some _ => simp [hi] at hc
  | none =>
    rw [hi] at hc
    dsimp only at hc
    set c1 := c.setEntry i ⟨t, alloc i, 1, true, d⟩ with hc1
    -- the tracker before and after
    have hkey : ∃ l, (∀ u, skel c' u = if u = t then some (l, some i) else skel c u) ∧
        (skel c t = none ∧ l = [] ∨ skel c t = some (l, none)) ∧ c'.cache = c1.cache ∧ c.size ≤ c'.size ∧ t < c'.size ∧
        ∀ u tr, c'.graph u = some tr → tr.last = -1 := by
      cases hg : c1.graph t with
      | none =>
        rw [hg] at hc
        simp only [createTracker, hg, Except.ok.injEq] at hc
        refine ⟨[], ?_, .inl ⟨skel_none.mpr hg, rfl⟩, ?_, ?_, ?_, ?_⟩
        · intro u
          rw [← hc]
          exact skel_setTracker c1 t _ u
        · rw [← hc]; rfl
        · rw [← hc]; exact Nat.le_max_left _ _
        · rw [← hc]; exact Nat.lt_of_lt_of_le (Nat.lt_succ_self t) (Nat.le_max_right _ _)
        · intro u tr hu
          rw [← hc] at hu
          simp only [Context.setTracker] at hu
          by_cases hut : u = t
          · subst hut
            rw [Function.update_self] at hu
            obtain rfl := Option.some.inj hu
            rfl
          · rw [Function.update_of_ne hut] at hu
            exact h.last u tr hu
      | some tr0 =>
        rw [hg] at hc
        dsimp only at hc
        split at hc
        · cases hx : tr0.cacheIndex with
          | some _ => simp [hx] at hc
          | none =>
            simp only [hx, Except.ok.injEq] at hc
            have hsk : skel c t = some (tr0.subscribers, none) := by
              have : c.graph t = some tr0 := hg
              simp [skel, this, hx]
            refine ⟨tr0.subscribers, ?_, .inr hsk, ?_, ?_, ?_, ?_⟩
            · intro u
              rw [← hc, skel_setTracker]
              rfl
            · rw [← hc]; rfl
            · rw [← hc]; exact Nat.le_refl _
            · rw [← hc]; exact h.size t _ hsk
            · intro u tr hu
              rw [← hc] at hu
              simp only [Context.setTracker] at hu
              by_cases hut : u = t
              · subst hut
                rw [Function.update_self] at hu
                obtain rfl := Option.some.inj hu
                exact h.last u tr0 hg
              · rw [Function.update_of_ne hut] at hu
                exact h.last u tr hu
        · cases hc
    obtain ⟨l, hsk, hold, hcache, hz, htz, hlast⟩ := hkey
    have hni : ∀ u d', .entry i u d' ∉ ws := by
      intro u d' hmem
      have := (h.cache i ⟨u, alloc i, 1, true, d'⟩).mpr ⟨u, d', hmem, rfl⟩
      rw [hi] at this
      cases this
    have hnt : ∀ j d', .entry j t d' ∉ ws := by
      intro j d' hmem
      obtain ⟨l', hl'⟩ := (h.index t j).mpr ⟨d', hmem⟩
      rcases hold with ⟨h0, _⟩ | h0 <;> rw [h0] at hl' <;> simp at hl'
    refine ⟨?_, ?_, ?_, ?_, ?_, ?_, hlast⟩
    · intro u p hu
      rw [hsk] at hu
      split at hu
      · subst u
        exact htz
      · exact Nat.lt_of_lt_of_le (h.size u p hu) hz
    · intro a b
      rw [List.mem_append, ← h.edge a b]
      simp only [Edge, hsk, List.mem_singleton, reduceCtorEq, or_false]
      by_cases ha : a = t
      · subst ha
        rcases hold with ⟨h0, rfl⟩ | h0 <;> simp [h0]
      · simp [ha]
    · intro a b hab
      have hab : Wire.subscribe b a ∈ ws := by simpa using hab
      obtain ⟨⟨p, hp⟩, q, hq⟩ := h.ends a b hab
      refine ⟨?_, ?_⟩ <;> rw [hsk] <;> split <;> first | exact ⟨_, rfl⟩ | exact ⟨_, hp⟩ | exact ⟨_, hq⟩
    · intro u
      rw [hsk]
      have := h.made u
      unfold Makes at *
      by_cases hu : u = t
      · subst hu
        simp only [if_true, Option.some.injEq, exists_eq', true_iff]
        exact .inr ⟨i, d, by simp⟩
      · simp [hu, this]
    · intro u j
      rw [hsk]
      have := h.index u j
      by_cases hu : u = t
      · subst hu
        have hn : ¬ ∃ d', Wire.entry j u d' ∈ ws := fun ⟨d', h'⟩ => hnt j d' h'
        simp only [if_true, Option.some.injEq, Prod.mk.injEq, List.mem_append, List.mem_singleton, Wire.entry.injEq,
          true_and]
        constructor
        · rintro ⟨_, _, rfl⟩
          exact ⟨d, .inr ⟨rfl, rfl⟩⟩
        · rintro ⟨d', h' | ⟨h', _⟩⟩
          · exact absurd ⟨d', h'⟩ hn
          · exact ⟨l, rfl, h'.symm⟩
      · simp [hu, this]
    · intro j en
      rw [hcache, hc1]
      simp only [Context.setEntry]
      by_cases hj : j = i
      · subst hj
        rw [Function.update_self]
        constructor
        · intro h'
          exact ⟨t, d, by simp, (Option.some.inj h').symm⟩
        · rintro ⟨t', d', h', rfl⟩
          rcases List.mem_append.mp h' with h' | h'
          · exact absurd h' (hni t' d')
          · simp only [List.mem_singleton, Wire.entry.injEq, true_and] at h'
            obtain ⟨rfl, rfl⟩ := h'
            rfl
      · rw [Function.update_of_ne hj, h.cache j en]
        simp [hj]

theorem wire_rest {alloc : Nat → V} {w : Wire} {c c' : Context V} (h : wire alloc w c = .ok c') :
    c'.frozen = c.frozen ∧ c'.event = c.event ∧ c'.discrete = c.discrete ∧ c'.abstract = c.abstract ∧
      c'.numeric = c.numeric ∧ c'.abstractParams = c.abstractParams ∧ c'.inputs = c.inputs ∧ c'.sources = c.sources := by
  cases w with
  | create t =>
    simp only [wire, createTracker] at h
    split at h
    · cases h
    · simp only [Except.ok.injEq] at h
      rw [← h]
      simp [Context.setTracker]
  | subscribe s p =>
    have := (subscribe_spec (by simpa [wire] using h)).2.2.2.2.2
    rw [this]
    simp
  | entry i t d =>
    simp only [wire] at h
    split at h
    · cases h
    · split at h
      · split at h
        · split at h
          · cases h
          · simp only [Except.ok.injEq] at h
            rw [← h]
            simp [Context.setTracker, Context.setEntry]
        · cases h
      · simp only [createTracker] at h
        split at h
        · cases h
        · simp only [Except.ok.injEq] at h
          rw [← h]
          simp [Context.setTracker, Context.setEntry]

theorem Built.step {alloc : Nat → V} {ws : List Wire} {c c' : Context V} {w : Wire} (h : Built alloc ws c)
    (hc : wire alloc w c = .ok c') : Built alloc (ws ++ [w]) c' := by
  cases w with
  | create t => exact h.create hc
  | subscribe s p => exact h.subscribe hc
  | entry i t d => exact h.entry hc

theorem Built.fold {alloc : Nat → V} (us : List Wire) : ∀ {ws : List Wire} {c c' : Context V}, Built alloc ws c →
    us.foldlM (fun c w => wire alloc w c) c = .ok c' → Built alloc (ws ++ us) c' ∧
    c'.frozen = c.frozen ∧ c'.event = c.event ∧ c'.discrete = c.discrete ∧ c'.abstract = c.abstract ∧
      c'.numeric = c.numeric ∧ c'.abstractParams = c.abstractParams ∧ c'.inputs = c.inputs ∧ c'.sources = c.sources := by
  induction us with
  | nil =>
    intro ws c c' h hc
    simp only [List.foldlM_nil, pure, Except.pure, Except.ok.injEq] at hc
    subst hc
    simpa using h
  | cons w us ih =>
    intro ws c c' h hc
    rw [List.foldlM_cons] at hc
    cases hw : wire alloc w c with
    | error e => simp [hw, bind, Except.bind] at hc
    | ok c1 =>
      rw [hw] at hc
      obtain ⟨b, r⟩ := ih (h.step hw) hc
      have q := wire_rest hw
      rw [List.append_assoc] at b
      refine ⟨b, ?_⟩
      obtain ⟨q1, q2, q3, q4, q5, q6, q7, q8⟩ := q
      obtain ⟨r1, r2, r3, r4, r5, r6, r7, r8⟩ := r
      exact ⟨r1.trans q1, r2.trans q2, r3.trans q3, r4.trans q4, r5.trans q5, r6.trans q6, r7.trans q7, r8.trans q8⟩

theorem built_empty (alloc : Nat → V) (c : Context V) (hg : c.graph = fun _ => none) (hc : c.cache = fun _ => none) :
    Built alloc [] c := by
  have hs : ∀ t, skel c t = none := by
    intro t
    simp [skel, hg]
  refine ⟨?_, ?_, ?_, ?_, ?_, ?_, ?_⟩
  · intro t p h
    simp [hs] at h
  · intro a b
    simp [Edge, hs]
  · intro a b h
    simp at h
  · intro t
    simp [hs, Makes]
  · intro t i
    simp [hs]
  · intro i en
    simp [hc]
  · intro t tr h
    simp [hg] at h

theorem makeContext_built {alloc src : Nat → V} {s : System} {c : Context V} (h : makeContext alloc src s = .ok c) :
    Built alloc (wiring s) c ∧ c.frozen = false ∧ c.event = 0 ∧ c.discrete = s.discrete ∧ c.abstract = s.abstract ∧
      c.numeric = s.numeric ∧ c.abstractParams = s.abstractParams ∧ c.inputs = s.inputs.map (fun t => (t, none)) ∧
      c.sources = src := by
  have := Built.fold (wiring s) (built_empty alloc _ rfl rfl) h
  simpa using this

end Maliput.Cache
