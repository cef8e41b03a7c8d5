import Verif.Lemmas.CacheSystem

set_option autoImplicit false
set_option linter.unusedSectionVars false

/-!
Contexts of declared systems can be made.
-/
namespace Maliput.Cache

variable {V : Type}

/-- The tickets with a tracker. -/
def tickets (ws : List Wire) : List Nat := ws.filterMap fun
  | .create t => some t
  | .entry _ t _ => some t
  | .subscribe _ _ => none

/-- The cache entries, and their tickets. -/
def wiredEntries (ws : List Wire) : List (Nat × Nat) := ws.filterMap fun
  | .entry i t _ => some (i, t)
  | _ => none

/-- The step can be taken. -/
def fits (ws : List Wire) : Wire → Bool
  | .create t => t ∉ tickets ws
  | .subscribe a b => a ∈ tickets ws && b ∈ tickets ws
  | .entry i t _ => i ∉ (wiredEntries ws).map Prod.fst &&
    (t ∉ tickets ws || (t < nextAvailableTicket && t ∉ (wiredEntries ws).map Prod.snd))

/-- The steps can be taken. -/
def valid : List Wire → List Wire → Bool
  | _, [] => true
  | ws, w :: us => fits ws w && valid (ws ++ [w]) us

theorem mem_tickets {ws : List Wire} {t : Nat} : t ∈ tickets ws ↔ Makes ws t := by
  simp only [tickets, List.mem_filterMap, Makes]
  constructor
  · rintro ⟨w, hw, h⟩
    cases w with
    | create u =>
      obtain rfl := Option.some.inj h
      exact .inl hw
    | entry i u d =>
      obtain rfl := Option.some.inj h
      exact .inr ⟨i, d, hw⟩
    | subscribe a b => cases h
  · rintro (h | ⟨i, d, h⟩)
    · exact ⟨_, h, rfl⟩
    · exact ⟨_, h, rfl⟩

theorem mem_wiredEntries {ws : List Wire} {i t : Nat} : (i, t) ∈ wiredEntries ws ↔ ∃ d, .entry i t d ∈ ws := by
  simp only [wiredEntries, List.mem_filterMap]
  constructor
  · rintro ⟨w, hw, h⟩
    cases w with
    | create u => cases h
    | entry j u d =>
      simp only [Option.some.injEq, Prod.mk.injEq] at h
      obtain ⟨rfl, rfl⟩ := h
      exact ⟨d, hw⟩
    | subscribe a b => cases h
  · rintro ⟨d, h⟩
    exact ⟨_, h, rfl⟩

theorem valid_append (us : List Wire) : ∀ ws vs, valid ws (us ++ vs) = (valid ws us && valid (ws ++ us) vs) := by
  induction us with
  | nil => simp [valid]
  | cons w us ih =>
    intro ws vs
    simp [valid, ih, Bool.and_assoc]

theorem wire_fits {alloc : Nat → V} {ws : List Wire} {c : Context V} {w : Wire} (h : Built alloc ws c)
    (hw : fits ws w = true) : ∃ c', wire alloc w c = .ok c' := by
  have hnone : ∀ t, t ∉ tickets ws → c.graph t = none := by
    intro t ht
    rw [← skel_none, ← Option.not_isSome_iff_eq_none]
    intro hs
    exact ht (mem_tickets.mpr ((h.made t).mp (Option.isSome_iff_exists.mp hs)))
  have hsome : ∀ t, t ∈ tickets ws → ∃ tr, c.graph t = some tr := by
    intro t ht
    obtain ⟨p, hp⟩ := (h.made t).mpr (mem_tickets.mp ht)
    obtain ⟨tr, htr, _⟩ := skel_some hp
    exact ⟨tr, htr⟩
  cases w with
  | create t =>
    simp only [fits, decide_eq_true_eq] at hw
    simp only [wire, createTracker, hnone t hw]
    exact ⟨_, rfl⟩
  | subscribe a b =>
    simp only [fits, Bool.and_eq_true, decide_eq_true_eq] at hw
    obtain ⟨ta, ha⟩ := hsome a hw.1
    obtain ⟨tb, hb⟩ := hsome b hw.2
    simp only [wire, subscribe, ha]
    by_cases hab : b = a
    · subst hab
      simp only [Context.setTracker, Function.update_self]
      exact ⟨_, rfl⟩
    · rw [show (c.setTracker a { ta with prerequisites := ta.prerequisites ++ [b] }).graph b = some tb by
        simp [Context.setTracker, hab, hb]]
      exact ⟨_, rfl⟩
  | entry i t d =>
    simp only [fits, Bool.and_eq_true, Bool.or_eq_true, decide_eq_true_eq] at hw
    obtain ⟨hi, ht⟩ := hw
    have hci : c.cache i = none := by
      rw [← Option.not_isSome_iff_eq_none]
      intro hs
      obtain ⟨en, hen⟩ := Option.isSome_iff_exists.mp hs
      obtain ⟨t', d', hm, _⟩ := (h.cache i en).mp hen
      exact hi (List.mem_map.mpr ⟨(i, t'), mem_wiredEntries.mpr ⟨d', hm⟩, rfl⟩)
    simp only [wire, hci]
    by_cases hm : t ∈ tickets ws
    · obtain ⟨tr, htr⟩ := hsome t hm
      rw [show (c.setEntry i ⟨t, alloc i, 1, true, d⟩).graph t = some tr from htr]
      obtain ⟨hlt, hno⟩ := ht.resolve_left (fun hn => hn hm)
      have hidx : tr.cacheIndex = none := by
        rw [← Option.not_isSome_iff_eq_none]
        intro hs
        obtain ⟨j, hj⟩ := Option.isSome_iff_exists.mp hs
        obtain ⟨d', hd'⟩ := (h.index t j).mp ⟨tr.subscribers, by simp [skel, htr, hj]⟩
        exact hno (List.mem_map.mpr ⟨(j, t), mem_wiredEntries.mpr ⟨d', hd'⟩, rfl⟩)
      simp only [if_pos hlt, hidx]
      exact ⟨_, rfl⟩
    · rw [show (c.setEntry i ⟨t, alloc i, 1, true, d⟩).graph t = none from hnone t hm]
      simp only [createTracker]
      rw [show (c.setEntry i ⟨t, alloc i, 1, true, d⟩).graph t = none from hnone t hm]
      exact ⟨_, rfl⟩

theorem fold_valid {alloc : Nat → V} (us : List Wire) : ∀ {ws : List Wire} {c : Context V}, Built alloc ws c →
    valid ws us = true → ∃ c', us.foldlM (fun c w => wire alloc w c) c = .ok c' := by
  induction us with
  | nil => exact fun _ _ => ⟨_, rfl⟩
  | cons w us ih =>
    intro ws c h hv
    simp only [valid, Bool.and_eq_true] at hv
    obtain ⟨c1, h1⟩ := wire_fits h hv.1
    obtain ⟨c2, h2⟩ := ih (h.step h1) hv.2
    exact ⟨c2, by rw [List.foldlM_cons, h1]; exact h2⟩

theorem tickets_append (ws us : List Wire) : tickets (ws ++ us) = tickets ws ++ tickets us := by
  simp [tickets]

theorem wiredEntries_append (ws us : List Wire) : wiredEntries (ws ++ us) = wiredEntries ws ++ wiredEntries us := by
  simp [wiredEntries]

theorem tickets_make (g : Nat) (ts : List Nat) : tickets (makeTrackers g ts) = ts := by
  induction ts with
  | nil => rfl
  | cons t ts ih =>
    have : makeTrackers g (t :: ts) = [.create t, .subscribe g t] ++ makeTrackers g ts := rfl
    rw [this, tickets_append, ih]
    rfl

theorem wiredEntries_make (g : Nat) (ts : List Nat) : wiredEntries (makeTrackers g ts) = [] := by
  induction ts with
  | nil => rfl
  | cons t ts ih =>
    have : makeTrackers g (t :: ts) = [.create t, .subscribe g t] ++ makeTrackers g ts := rfl
    rw [this, wiredEntries_append, ih]
    rfl

theorem valid_make {g : Nat} (ts : List Nat) : ∀ {ws : List Wire}, g ∈ tickets ws → ts.Nodup →
    (∀ t ∈ ts, t ∉ tickets ws) → valid ws (makeTrackers g ts) = true := by
  induction ts with
  | nil => exact fun _ _ _ => rfl
  | cons t ts ih =>
    intro ws hg hn hd
    have : makeTrackers g (t :: ts) = [.create t, .subscribe g t] ++ makeTrackers g ts := rfl
    rw [List.nodup_cons] at hn
    rw [this, valid_append, Bool.and_eq_true]
    refine ⟨?_, ih ?_ hn.2 ?_⟩
    · have h1 := hd t List.mem_cons_self
      simp only [valid, fits, Bool.and_true, Bool.and_eq_true, decide_eq_true_eq, tickets_append, List.mem_append]
      exact ⟨h1, .inl hg, .inr (by simp [tickets])⟩
    · rw [tickets_append]
      exact List.mem_append_left _ hg
    · intro u hu
      rw [tickets_append, List.mem_append, not_or]
      refine ⟨hd u (List.mem_cons_of_mem _ hu), ?_⟩
      simp only [tickets, List.filterMap_cons, List.filterMap_nil, List.mem_singleton]
      rintro rfl
      exact hn.1 hu

theorem tickets_outputs (os : List (Nat × Nat)) : tickets (outputTrackers os) = os.map Prod.fst := by
  induction os with
  | nil => rfl
  | cons o os ih =>
    have : outputTrackers (o :: os) = [.create o.1, .subscribe o.1 o.2] ++ outputTrackers os := rfl
    rw [this, tickets_append, ih]
    rfl

theorem valid_outputs (os : List (Nat × Nat)) : ∀ {ws : List Wire}, (os.map Prod.fst).Nodup →
    (∀ o ∈ os, o.1 ∉ tickets ws ∧ o.2 ∈ tickets ws) → valid ws (outputTrackers os) = true := by
  induction os with
  | nil => exact fun _ _ => rfl
  | cons o os ih =>
    intro ws hn hd
    have : outputTrackers (o :: os) = [.create o.1, .subscribe o.1 o.2] ++ outputTrackers os := rfl
    rw [List.map_cons, List.nodup_cons] at hn
    rw [this, valid_append, Bool.and_eq_true]
    refine ⟨?_, ih hn.2 ?_⟩
    · obtain ⟨h1, h2⟩ := hd o List.mem_cons_self
      simp only [valid, fits, Bool.and_true, Bool.and_eq_true, decide_eq_true_eq, tickets_append, List.mem_append]
      exact ⟨h1, .inr (by simp [tickets]), .inl h2⟩
    · intro u hu
      obtain ⟨h1, h2⟩ := hd u (List.mem_cons_of_mem _ hu)
      rw [tickets_append, List.mem_append, not_or, List.mem_append]
      refine ⟨⟨h1, ?_⟩, .inl h2⟩
      simp only [tickets, List.filterMap_cons, List.filterMap_nil, List.mem_singleton]
      intro he
      exact hn.1 (he ▸ List.mem_map_of_mem hu)

theorem tickets_entries (ds : List EntryDecl) : ∀ n, tickets (entryTrackers n ds) = ds.map EntryDecl.ticket := by
  induction ds with
  | nil => exact fun _ => rfl
  | cons d ds ih =>
    intro n
    have : entryTrackers n (d :: ds) =
      [.entry n d.ticket d.disabledByDefault] ++ (d.prerequisites.map (.subscribe d.ticket) ++ entryTrackers (n + 1) ds) := rfl
    rw [this, tickets_append, tickets_append, ih]
    have h0 : tickets (d.prerequisites.map (Wire.subscribe d.ticket)) = [] := by
      simp [tickets]
    rw [h0]
    rfl

theorem valid_subscribes {a : Nat} (ps : List Nat) : ∀ {ws : List Wire}, a ∈ tickets ws → (∀ p ∈ ps, p ∈ tickets ws) →
    valid ws (ps.map (.subscribe a)) = true := by
  induction ps with
  | nil => exact fun _ _ => rfl
  | cons p ps ih =>
    intro ws ha hp
    simp only [List.map_cons, valid, fits, Bool.and_eq_true, decide_eq_true_eq]
    refine ⟨⟨ha, hp p List.mem_cons_self⟩, ih ?_ ?_⟩
    · rw [tickets_append]
      exact List.mem_append_left _ ha
    · intro q hq
      rw [tickets_append]
      exact List.mem_append_left _ (hp q (List.mem_cons_of_mem _ hq))

theorem valid_entries (ds : List EntryDecl) : ∀ {ws : List Wire} {n : Nat}, (ds.map EntryDecl.ticket).Nodup →
    (∀ e ∈ wiredEntries ws, e.1 < n ∧ e.2 ∉ ds.map EntryDecl.ticket) →
    (∀ d ∈ ds, d.ticket ∉ tickets ws ∨ d.ticket < nextAvailableTicket) →
    (∀ (i : Nat) (d : EntryDecl), ds[i]? = some d → ∀ p ∈ d.prerequisites,
      p ∈ tickets ws ∨ ∃ j < i, ∃ d' : EntryDecl, ds[j]? = some d' ∧ d'.ticket = p) →
    valid ws (entryTrackers n ds) = true := by
  induction ds with
  | nil => exact fun _ _ _ _ => rfl
  | cons d ds ih =>
    intro ws n hn he ht hp
    have : entryTrackers n (d :: ds) =
      [.entry n d.ticket d.disabledByDefault] ++ (d.prerequisites.map (.subscribe d.ticket) ++ entryTrackers (n + 1) ds) := rfl
    rw [List.map_cons, List.nodup_cons] at hn
    have ht1 : tickets [Wire.entry n d.ticket d.disabledByDefault] = [d.ticket] := rfl
    have ht2 : tickets (d.prerequisites.map (Wire.subscribe d.ticket)) = [] := by
      simp [tickets]
    have he1 : wiredEntries [Wire.entry n d.ticket d.disabledByDefault] = [(n, d.ticket)] := rfl
    have he2 : wiredEntries (d.prerequisites.map (Wire.subscribe d.ticket)) = [] := by
      simp [wiredEntries]
    rw [this, valid_append, valid_append, Bool.and_eq_true, Bool.and_eq_true]
    refine ⟨?_, valid_subscribes _ ?_ ?_, ih hn.2 ?_ ?_ ?_⟩
    · simp only [valid, fits, Bool.and_true, Bool.and_eq_true, Bool.or_eq_true, decide_eq_true_eq]
      refine ⟨?_, ?_⟩
      · intro hm
        obtain ⟨e, hmem, heq⟩ := List.mem_map.mp hm
        exact absurd (he e hmem).1 (by omega)
      · refine (ht d List.mem_cons_self).imp_right fun h => ⟨h, ?_⟩
        intro hm
        obtain ⟨e, hmem, heq⟩ := List.mem_map.mp hm
        exact (he e hmem).2 (by rw [heq]; simp)
    · rw [tickets_append, ht1]
      simp
    · intro p hpp
      rw [tickets_append]
      rcases hp 0 d rfl p hpp with h | ⟨j, hj, _⟩
      · exact List.mem_append_left _ h
      · exact absurd hj (Nat.not_lt_zero j)
    · intro e hmem
      rw [wiredEntries_append, wiredEntries_append, he1, he2, List.append_nil, List.mem_append, List.mem_singleton] at hmem
      rcases hmem with hmem | rfl
      · obtain ⟨h1, h2⟩ := he e hmem
        exact ⟨by omega, fun h => h2 (by simp [h])⟩
      · exact ⟨Nat.lt_succ_self n, hn.1⟩
    · intro d' hd'
      rw [tickets_append, tickets_append, ht1, ht2, List.append_nil, List.mem_append, List.mem_singleton, not_or]
      refine (ht d' (List.mem_cons_of_mem _ hd')).imp_left fun h => ⟨h, ?_⟩
      intro heq
      exact hn.1 (heq ▸ List.mem_map_of_mem hd')
    · intro i d' hd' p hpp
      rw [tickets_append, tickets_append, ht1, ht2, List.append_nil, List.mem_append, List.mem_singleton]
      rcases hp (i + 1) d' (by simpa using hd') p hpp with h | ⟨j, hj, d'', hd'', heq⟩
      · exact .inl (.inl h)
      · cases j with
        | zero =>
          simp only [List.getElem?_cons_zero, Option.some.injEq] at hd''
          subst hd''
          exact .inl (.inr heq.symm)
        | succ j => exact .inr ⟨j, by omega, d'', by simpa using hd'', heq⟩

/-- Every output port depends on a cache entry. -/
theorem outputs_entries {ds : List Decl} {s : System} (h : declareAll ds = .ok s) :
    ∀ o ∈ s.outputs, o.2 ∈ s.entries.map EntryDecl.ticket := by
  have key : ∀ (ds : List Decl) (s s' : System), (∀ o ∈ s.outputs, o.2 ∈ s.entries.map EntryDecl.ticket) →
      ds.foldlM (fun s d => declare d s) s = .ok s' → ∀ o ∈ s'.outputs, o.2 ∈ s'.entries.map EntryDecl.ticket := by
    intro ds
    induction ds with
    | nil =>
      intro s s' h hd
      simp only [List.foldlM_nil, pure, Except.pure, Except.ok.injEq] at hd
      exact hd ▸ h
    | cons d ds ih =>
      intro s s' h hd
      rw [List.foldlM_cons] at hd
      obtain ⟨s1, h1, hd⟩ := bind_ok.mp hd
      refine ih s1 s' ?_ hd
      have hentry : ∀ {ps b} {s s' : System}, declareCacheEntry ps b s = .ok s' →
          s'.outputs = s.outputs ∧ s'.entries = s.entries ++ [⟨s.next, ps, b⟩] := by
        intro ps b s s' hd
        simp only [declareCacheEntry, declareCacheEntryWithKnownTicket] at hd
        obtain ⟨_, _, hd⟩ := bind_ok.mp hd
        simp only [pure, Except.pure, Except.ok.injEq] at hd
        subst hd
        exact ⟨rfl, rfl⟩
      cases d with
      | cacheEntry ps b =>
        obtain ⟨e1, e2⟩ := hentry h1
        rw [e1, e2]
        intro o ho
        rw [List.map_append]
        exact List.mem_append_left _ (h o ho)
      | outputPort ps =>
        simp only [declare] at h1
        obtain ⟨s2, h2, h1⟩ := bind_ok.mp h1
        simp only [pure, Except.pure, Except.ok.injEq] at h1
        subst h1
        obtain ⟨e1, e2⟩ := hentry h2
        dsimp only
        rw [e1, e2]
        intro o ho
        rw [List.map_append]
        rw [List.mem_append] at ho
        rcases ho with ho | ho
        · exact List.mem_append_left _ (h o ho)
        · rw [List.mem_singleton] at ho
          subst ho
          exact List.mem_append_right _ (by simp)
      | discreteState => simp only [declare, Except.ok.injEq] at h1; subst h1; exact h
      | abstractState => simp only [declare, Except.ok.injEq] at h1; subst h1; exact h
      | numericParameter => simp only [declare, Except.ok.injEq] at h1; subst h1; exact h
      | abstractParameter => simp only [declare, Except.ok.injEq] at h1; subst h1; exact h
      | inputPort => simp only [declare, Except.ok.injEq] at h1; subst h1; exact h
  exact key ds newSystem s (by decide) h

theorem tickets_builtIn (t : Nat) : t ∈ tickets builtInTrackers ↔ t < nextAvailableTicket := by
  constructor
  · intro h
    have : ∀ t ∈ tickets builtInTrackers, t < nextAvailableTicket := by decide
    exact this t h
  · intro h
    have : ∀ t < nextAvailableTicket, t ∈ tickets builtInTrackers := by decide
    exact this t h

/-- Contexts of declared systems can be made when the prerequisites of every cache entry are known tickets: well known
ones, those of sources, or those of entries declared before. -/
theorem makeContext_ok {ds : List Decl} {s : System} (h : declareAll ds = .ok s)
    (hp : ∀ (i : Nat) d, s.entries[i]? = some d → ∀ p ∈ d.prerequisites,
      p < nextAvailableTicket ∨ p ∈ s.declared ∨ ∃ j < i, ∃ d', s.entries[j]? = some d' ∧ d'.ticket = p)
    (alloc src : Nat → V) : ∃ c, makeContext alloc src s = .ok c := by
  have w := wellformed h
  have ho := outputs_entries h
  refine fold_valid (wiring s) (built_empty alloc _ rfl rfl) ?_
  have hn := w.nodup
  simp only [System.given, List.nodup_append, List.mem_append] at hn
  obtain ⟨⟨hn1, _, hn12⟩, hn3, hn123⟩ := hn
  have hbig : ∀ t ∈ s.declared, nextAvailableTicket ≤ t := fun t ht => (w.range t (mem_given.mpr (.inl ht))).1
  have hsrc : tickets (sourceTrackers s) = s.declared := by
    simp only [sourceTrackers, tickets_append, tickets_make, System.declared]
  have hsrcE : wiredEntries (builtInTrackers ++ sourceTrackers s) = [] := by
    simp only [sourceTrackers, wiredEntries_append, wiredEntries_make]
    rfl
  have hb : ∀ t < nextAvailableTicket, t ∈ tickets builtInTrackers := fun t ht => (tickets_builtIn t).mpr ht
  have hnb : ∀ t, nextAvailableTicket ≤ t → t ∉ tickets builtInTrackers := fun t ht hm =>
    absurd ((tickets_builtIn t).mp hm) (Nat.not_lt.mpr ht)
  simp only [wiring, valid_append, List.nil_append, Bool.and_eq_true]
  refine ⟨⟨⟨by decide, ?_⟩, ?_⟩, ?_⟩
  · simp only [System.declared, List.nodup_append, List.mem_append] at hn1
    obtain ⟨⟨⟨⟨d1, d2, d12⟩, d3, d123⟩, d4, d1234⟩, d5, d12345⟩ := hn1
    have hbig' : ∀ t, t ∈ s.discrete ∨ t ∈ s.abstract ∨ t ∈ s.numeric ∨ t ∈ s.abstractParams ∨ t ∈ s.inputs →
        t ∉ tickets builtInTrackers := by
      intro t ht
      refine hnb t (hbig t ?_)
      simp only [System.declared, List.mem_append]
      tauto
    simp only [sourceTrackers, valid_append, Bool.and_eq_true]
    refine ⟨⟨⟨⟨?_, ?_⟩, ?_⟩, ?_⟩, ?_⟩
    · exact valid_make _ (hb _ (by decide)) d1 fun t ht => hbig' t (by tauto)
    all_goals
      refine valid_make _ ?_ (by assumption) fun t ht => ?_
      · simp only [tickets_append, List.mem_append]
        exact .inl (hb _ (by decide))
      · simp only [tickets_append, tickets_make, List.mem_append, not_or]
        have := hbig' t (by tauto)
        first
        | exact ⟨this, fun hm => d12 t hm t ht rfl⟩
        | exact ⟨this, fun hm => d123 t (.inl hm) t ht rfl, fun hm => d123 t (.inr hm) t ht rfl⟩
        | exact ⟨this, ⟨fun hm => d1234 t (.inl (.inl hm)) t ht rfl, fun hm => d1234 t (.inl (.inr hm)) t ht rfl⟩,
            fun hm => d1234 t (.inr hm) t ht rfl⟩
        | exact ⟨this, ⟨⟨fun hm => d12345 t (.inl (.inl (.inl hm))) t ht rfl,
            fun hm => d12345 t (.inl (.inl (.inr hm))) t ht rfl⟩, fun hm => d12345 t (.inl (.inr hm)) t ht rfl⟩,
            fun hm => d12345 t (.inr hm) t ht rfl⟩
  · refine valid_entries _ w.once ?_ ?_ ?_
    · rw [hsrcE]
      simp
    · intro d hd
      by_cases hlt : d.ticket < nextAvailableTicket
      · exact .inr hlt
      · left
        have hge := Nat.le_of_not_lt hlt
        rw [tickets_append, hsrc, List.mem_append, not_or]
        refine ⟨hnb _ hge, fun hm => hn12 _ hm d.ticket ?_ rfl⟩
        rw [List.mem_filter]
        exact ⟨List.mem_map_of_mem hd, by simpa using hge⟩
    · intro i d hd p hpp
      rw [tickets_append, hsrc, List.mem_append]
      rcases hp i d hd p hpp with h | h | h
      · exact .inl (.inl (hb p h))
      · exact .inl (.inr h)
      · exact .inr h
  · refine valid_outputs _ hn3 fun o hmem => ?_
    simp only [tickets_append, hsrc, tickets_entries, List.mem_append, not_or]
    have hg : o.1 ∈ s.outputs.map Prod.fst := List.mem_map_of_mem hmem
    have hge := (w.range o.1 (mem_given.mpr (.inr (.inr hg)))).1
    refine ⟨⟨⟨hnb _ hge, fun hm => hn123 _ (.inl hm) o.1 hg rfl⟩, fun hm => hn123 o.1 (.inr ?_) o.1 hg rfl⟩, .inr (ho o hmem)⟩
    rw [List.mem_filter]
    exact ⟨hm, by simpa using hge⟩

end Maliput.Cache
