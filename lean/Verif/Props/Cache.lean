import Verif.Lemmas.CacheWritten
import Verif.Lemmas.CacheMake

set_option autoImplicit false

/-!
# Cached results (C107, C108, C109, C110)

A context of a system, any history of writes, evaluations, cache control and cloning, and the results of the calculators
of its cache entries after that.
-/
namespace Maliput.Props

open Maliput.Cache
open Maliput.Cache.Spec (Computes Reads Covers Part Declared Layered EvalsOnly touched written)
open Maliput.RouteGraph (Stop)

variable {V : Type}

/-! ## An example: an input port, an entry which adds the state z and the port, and an entry computed from it -/

/-- Its declarations. -/
def sumDecls : List Decl := [.inputPort, .cacheEntry [zTicket, 28] false, .cacheEntry [29] false]

/-- Its system. -/
def sumSystem : System :=
  { newSystem with
    inputs := [28], entries := newSystem.entries ++ [⟨29, [zTicket, 28], false⟩, ⟨30, [29], false⟩], next := 31 }

/-- Its calculators: entry 6 adds z and the port, entry 7 doubles that, or throws when it is more than ten. -/
def sumCalc : Calc Nat where
  prog i :=
    if i = 6 then .read zTicket fun z => .read 28 fun u => .ret (z + u)
    else if i = 7 then .eval 6 fun a => if 10 < a then .throw else .ret (2 * a)
    else .ret 0
  spoil _ _ := 99

theorem sumSystem_declared : declareAll sumDecls = .ok sumSystem := by decide

theorem sumCalc_declared : Declared sumSystem sumCalc := by
  have h6 : ∀ t, Reads sumCalc (sumCalc.prog 6) t → t = zTicket ∨ t = 28 := by
    intro t h
    cases h with
    | here => exact .inl rfl
    | afterRead _ _ _ v h =>
      cases h with
      | here => exact .inr rfl
      | afterRead _ _ _ v h => cases h
  intro i d hd t ht
  match i, hd with
  | 0, _ => cases ht
  | 1, _ => cases ht
  | 2, _ => cases ht
  | 3, _ => cases ht
  | 4, _ => cases ht
  | 5, _ => cases ht
  | 6, hd =>
    obtain rfl := Option.some.inj hd
    rcases h6 t ht with rfl | rfl
    · exact ⟨zTicket, by decide, .refl⟩
    · exact ⟨28, by decide, .refl⟩
  | 7, hd =>
    obtain rfl := Option.some.inj hd
    refine ⟨29, by decide, ?_⟩
    have hent : (⟨29, [zTicket, 28], false⟩ : EntryDecl) ∈ sumSystem.entries := by decide
    have h6' : Covers sumSystem 29 t := by
      cases ht with
      | inEval _ _ _ h =>
        rcases h6 t h with rfl | rfl
        · exact .single (Part.entry hent (by decide))
        · exact .single (Part.entry hent (by decide))
      | afterEval _ _ _ v h =>
        exfalso
        revert h
        dsimp only
        split <;> intro h <;> cases h
    exact h6'
  | n + 8, hd => simp [sumSystem, newSystem] at hd

theorem sumCalc_layered : Layered sumSystem sumCalc id := by
  intro i hi
  by_cases h6 : i = 6
  · subst h6
    exact fun _ _ => trivial
  · by_cases h7 : i = 7
    · subst h7
      refine ⟨⟨by decide, by decide⟩, fun v => ?_⟩
      dsimp only
      split <;> trivial
    · simp only [sumCalc, if_neg h6, if_neg h7]
      trivial

/-- The values at first: all zero. -/
def sumSources : Nat → Nat := fun _ => 0

/-- A history: evaluate, fix the port to 3, write z, evaluate with caching off, clone, freeze. -/
def sumOps : List (Op Nat) :=
  [.eval 7, .fixInputPort 0 3, .modify .continuousState (fun _ => 1), .disableCaching, .eval 7, .enableCaching, .clone,
    .setFixedInput 0 4, .eval 6, .freeze, .unfreeze]

/-- The result after a history from a new context. -/
def sumResult (ops : List (Op Nat)) (i : Nat) : Option Nat :=
  match makeContext (fun _ => 77) sumSources sumSystem with
  | .error _ => none
  | .ok c =>
    match (evalEntry sumCalc 9 i (history sumCalc 9 ops c)).2 with
    | .ok v => some v
    | .error _ => none

/-! ## C107: results are never stale -/

/-- C107: the context of a system whose cache entries name known prerequisites can be made. -/
theorem context_made {ds : List Decl} {s : System} (hs : declareAll ds = .ok s)
    (hp : ∀ (i : Nat) d, s.entries[i]? = some d → ∀ p ∈ d.prerequisites, p < nextAvailableTicket ∨
      p ∈ s.discrete ++ s.abstract ++ s.numeric ++ s.abstractParams ++ s.inputs ∨
      ∃ j < i, ∃ d', s.entries[j]? = some d' ∧ d'.ticket = p)
    (alloc sources : Nat → V) : ∃ c, makeContext alloc sources s = .ok c :=
  makeContext_ok hs hp alloc sources

example : ∃ c, makeContext (fun _ => 77) sumSources sumSystem = .ok c := by
  refine context_made sumSystem_declared ?_ _ _
  intro i d hd p hp
  match i, hd with
  | 0, hd => obtain rfl := Option.some.inj hd; left; revert hp; revert p; decide
  | 1, hd => obtain rfl := Option.some.inj hd; left; revert hp; revert p; decide
  | 2, hd => obtain rfl := Option.some.inj hd; left; revert hp; revert p; decide
  | 3, hd => obtain rfl := Option.some.inj hd; left; revert hp; revert p; decide
  | 4, hd => obtain rfl := Option.some.inj hd; left; revert hp; revert p; decide
  | 5, hd => obtain rfl := Option.some.inj hd; left; revert hp; revert p; decide
  | 6, hd =>
    obtain rfl := Option.some.inj hd
    simp only [List.mem_cons, List.not_mem_nil, or_false] at hp
    rcases hp with rfl | rfl
    · exact .inl (by decide)
    · exact .inr (.inl (by decide))
  | 7, hd =>
    obtain rfl := Option.some.inj hd
    simp only [List.mem_cons, List.not_mem_nil, or_false] at hp
    subst hp
    exact .inr (.inr ⟨6, by decide, _, rfl, rfl⟩)
  | n + 8, hd => simp [sumSystem, newSystem] at hd

/-- C107: after every history, a result of a cache entry is what its calculator computes, with nothing cached, from the
values last written to the sources. -/
theorem eval_written {ds : List Decl} {s : System} {alloc sources : Nat → V} {c c' : Context V} {k : Calc V} {n m i : Nat}
    {ops : List (Op V)} {v : V} (hs : declareAll ds = .ok s) (hc : makeContext alloc sources s = .ok c)
    (hk : Declared s k) (h : evalEntry k m i (history k n ops c) = (c', .ok v)) :
    Computes k (written s sources ops) (k.prog i) v := by
  have hg := (good_make k hs hc).history hk n ops
  have := (evalEntry_spec k m i _ hg.fresh).value v (by rw [h])
  rwa [history_sources hs hc hk n ops] at this

/-- C107: so is a value which is reported to be up to date. -/
theorem known_written {ds : List Decl} {s : System} {alloc sources : Nat → V} {c : Context V} {k : Calc V} {n i : Nat}
    {ops : List (Op V)} {v : V} (hs : declareAll ds = .ok s) (hc : makeContext alloc sources s = .ok c)
    (hk : Declared s k) (h : getKnownUpToDate i (history k n ops c) = .ok v) :
    Computes k (written s sources ops) (k.prog i) v := by
  have hg := (good_make k hs hc).history hk n ops
  rw [← history_sources hs hc hk n ops]
  rw [getKnownUpToDate] at h
  cases hen : (history k n ops c).cache i with
  | none => simp [hen] at h
  | some en =>
    rw [hen] at h
    dsimp only at h
    split at h
    · cases h
    · rename_i ho
      obtain rfl := Except.ok.inj h
      exact hg.fresh i en hen (by simpa using ho)

/-- C107: when the cache is not frozen, an evaluation gives a result exactly when the calculator computes one, and throws
otherwise. -/
theorem eval_answers {ds : List Decl} {s : System} {alloc sources : Nat → V} {c : Context V} {k : Calc V} {n m i : Nat}
    {rank : Nat → Nat} {ops : List (Op V)} (hs : declareAll ds = .ok s) (hc : makeContext alloc sources s = .ok c)
    (hk : Declared s k) (hl : Layered s k rank) (hi : i < s.entries.length) (hm : rank i < m)
    (hf : (history k n ops c).frozen = false) :
    (∃ v, (evalEntry k m i (history k n ops c)).2 = .ok v ∧ Computes k (written s sources ops) (k.prog i) v) ∨
      ((evalEntry k m i (history k n ops c)).2 = .error (.err .throws) ∧
        ∀ v, ¬ Computes k (written s sources ops) (k.prog i) v) := by
  have hg := (good_make k hs hc).history hk n ops
  have he := evalEntry_spec k m i _ hg.fresh
  rw [← history_sources hs hc hk n ops]
  rcases (evalEntry_plain hl m i (history k n ops c) hi hm fun j hj => hg.structured.isSome hj).1 with ⟨v, hv⟩ | ht
  · exact .inl ⟨v, hv, he.value v hv⟩
  · exact .inr ⟨ht, he.throws ht hf⟩

/-- C107: every change of values, and every fixing of an existing input port, completes. -/
theorem changes_complete {ds : List Decl} {s : System} {alloc sources : Nat → V} {c : Context V} {k : Calc V} {n : Nat}
    {ops : List (Op V)} (hs : declareAll ds = .ok s) (hc : makeContext alloc sources s = .ok c) (hk : Declared s k) :
    (∀ a w, ∃ c', modify a w (history k n ops c) = .ok c') ∧
      ∀ p < s.inputs.length, ∀ v, ∃ c', fixInputPort p v (history k n ops c) = .ok c' ∧
        ∀ v', ∃ c'', setFixedInput p v' c' = .ok c'' := by
  have hg := (good_make k hs hc).history hk n ops
  refine ⟨fun a w => ?_, fun p hp v => ?_⟩
  · obtain ⟨c', e, _⟩ := modify_spec hg.structured a w
    exact ⟨c', e⟩
  · have hport := hg.structured.port p
    rw [List.getElem?_eq_getElem hp, eq_comm, Option.map_eq_some_iff] at hport
    obtain ⟨⟨pt, o⟩, hq, _⟩ := hport
    obtain ⟨c', e, h1, _, ⟨vt, hi⟩, _⟩ := fixInputPort_spec hg.structured hq v
    refine ⟨c', e, fun v' => ?_⟩
    have hlen : p < (history k n ops c).inputs.length := by
      by_contra hge
      rw [List.getElem?_eq_none (Nat.le_of_not_lt hge)] at hq
      cases hq
    have hp' : c'.inputs[p]? = some (pt, some vt) := by
      rw [hi, List.getElem?_set_self hlen]
    obtain ⟨c'', e', _⟩ := setFixedInput_spec h1 hp' v'
    exact ⟨c'', e'⟩

-- z = 1 and the port 4
example : written sumSystem sumSources sumOps zTicket = 1 ∧ written sumSystem sumSources sumOps 28 = 4 := by decide
example : sumResult sumOps 7 = some 10 := by decide +kernel
-- without notifications the cached 2 * (1 + 3) would be returned
example : sumResult (sumOps.take 5) 7 = some 8 := by decide +kernel
-- the calculator of entry 7 throws when the sum is more than ten, and gives results again after that
example : sumResult (sumOps ++ [.setFixedInput 0 11]) 7 = none := by decide +kernel
example : sumResult (sumOps ++ [.setFixedInput 0 11, .eval 7, .setFixedInput 0 2]) 7 = some 6 := by decide +kernel

/-! ## C108: the cache is transparent -/

/-- C108: two histories, of two contexts of a system, which leave the same values in the sources that a calculator can
look at give the same result, whatever was evaluated, cloned, frozen, marked, enabled or disabled in them. -/
theorem eval_transparent {ds : List Decl} {s : System} {alloc alloc' sources sources' : Nat → V} {c c' c1 c1' : Context V}
    {k : Calc V} {n n' m m' i : Nat} {ops ops' : List (Op V)} {v v' : V} (hs : declareAll ds = .ok s)
    (hc : makeContext alloc sources s = .ok c) (hc' : makeContext alloc' sources' s = .ok c') (hk : Declared s k)
    (hw : ∀ t, Reads k (k.prog i) t → written s sources' ops' t = written s sources ops t)
    (h : evalEntry k m i (history k n ops c) = (c1, .ok v)) (h' : evalEntry k m' i (history k n' ops' c') = (c1', .ok v')) :
    v' = v :=
  (eval_written hs hc' hk h').det ((eval_written hs hc hk h).congr hw)

/-- C108: an evaluation changes nothing but cached values. -/
theorem eval_keeps {ds : List Decl} {s : System} {alloc sources : Nat → V} {c : Context V} {k : Calc V} {n m i : Nat}
    {ops : List (Op V)} (hs : declareAll ds = .ok s) (hc : makeContext alloc sources s = .ok c) (hk : Declared s k) :
    (evalEntry k m i (history k n ops c)).1 =
        { history k n ops c with cache := (evalEntry k m i (history k n ops c)).1.cache } ∧
      ∀ j, ((evalEntry k m i (history k n ops c)).1.cache j).map (fun en => (en.ticket, en.disabled)) =
        ((history k n ops c).cache j).map fun en => (en.ticket, en.disabled) := by
  have hg := (good_make k hs hc).history hk n ops
  have := (evalEntry_spec k m i _ hg.fresh).kept
  exact ⟨this.rest, this.entries⟩

/-- C108: with a frozen cache nothing is computed or changed: an entry which is up to date, and whose caching is not
disabled, gives its value, any other throws. -/
theorem eval_frozen {k : Calc V} {m i : Nat} {c : Context V} {en : Entry V} (hf : c.frozen = true)
    (hen : c.cache i = some en) : evalEntry k (m + 1) i c =
      (c, if en.outOfDate = false ∧ en.disabled = false then .ok en.value else .error (.err .throws)) := by
  rw [evalEntry, hen, hf]
  dsimp only
  cases ho : en.outOfDate <;> cases hd : en.disabled <;> simp

/-- C108: disabling the caching of an entry makes a frozen cache refuse it even when it is up to date, enabling it makes
an entry which is up to date give its value as it is, and neither touches other entries; freezing makes entries which are
out of date throw, and unfreezing takes that back. -/
theorem eval_controls {k : Calc V} {m i : Nat} {c : Context V} {en : Entry V} (hen : c.cache i = some en) :
    evalEntry k (m + 1) i (freeze (disableEntry i c)) = (freeze (disableEntry i c), .error (.err .throws)) ∧
    (en.outOfDate = false → evalEntry k (m + 1) i (enableEntry i c) = (enableEntry i c, .ok en.value)) ∧
    (∀ j, j ≠ i → (disableEntry i c).cache j = c.cache j ∧ (enableEntry i c).cache j = c.cache j) ∧
    (en.outOfDate = true → evalEntry k (m + 1) i (freeze c) = (freeze c, .error (.err .throws))) ∧
    (unfreeze c).frozen = false ∧ (c.frozen = false → unfreeze (freeze c) = c) := by
  refine ⟨?_, ?_, ?_, ?_, rfl, ?_⟩
  · rw [eval_frozen (en := { en with disabled := true }) rfl (by simp [freeze, disableEntry, Context.mapEntry, hen])]
    simp
  · intro ho
    rw [evalEntry_cached (en := { en with disabled := false }) (by simp [enableEntry, Context.mapEntry, hen]) ho rfl]
  · intro j hj
    simp [disableEntry, enableEntry, Context.mapEntry, hj]
  · intro ho
    rw [eval_frozen (en := en) rfl (by simpa [freeze] using hen)]
    simp [ho]
  · intro hf
    rw [unfreeze, freeze, ← hf]

-- the same result whether caching is on or off, and in a clone
example : sumResult [.modify .continuousState (fun _ => 2), .eval 7] 7 =
    sumResult [.disableCaching, .modify .state (fun _ => 2), .setAllOutOfDate, .clone] 7 := by decide +kernel
example : sumResult [.modify .continuousState (fun _ => 2), .eval 7] 7 = some 4 := by decide +kernel
-- frozen after an evaluation, and before one
example : sumResult [.modify .continuousState (fun _ => 2), .eval 7, .freeze] 7 = some 4 := by decide +kernel
example : sumResult [.modify .continuousState (fun _ => 2), .freeze] 7 = none := by decide +kernel

-- an entry which is disabled is refused by a frozen cache, until it is enabled or the cache is not frozen any more
example : sumResult [.eval 7, .disableEntry 7, .freeze] 7 = none ∧ sumResult [.eval 7, .disableEntry 6, .freeze] 7 ≠ none ∧
    sumResult [.eval 7, .disableEntry 7, .freeze, .enableEntry 7] 7 ≠ none ∧
    sumResult [.eval 7, .disableEntry 7, .freeze, .unfreeze] 7 ≠ none := by decide +kernel

/-! ## C109: only what depends on a change is computed again -/

/-- The cache entry is out of date. -/
def Outdated (i : Nat) (c : Context V) : Prop := ∃ en, c.cache i = some en ∧ en.outOfDate = true

/-- C109: after a change, a cache entry is out of date exactly when it was before or one of the prerequisites declared for
it stands for a source that changed. -/
theorem modify_outdates {ds : List Decl} {s : System} {alloc sources : Nat → V} {c c' : Context V} {k : Calc V} {n i : Nat}
    {ops : List (Op V)} {a : Access} {w : Nat → V} {d : EntryDecl} (hs : declareAll ds = .ok s)
    (hc : makeContext alloc sources s = .ok c) (hk : Declared s k) (hd : s.entries[i]? = some d)
    (h : modify a w (history k n ops c) = .ok c') :
    Outdated i c' ↔ Outdated i (history k n ops c) ∨ ∃ t ∈ touched s a, ∃ p ∈ d.prerequisites, Covers s p t := by
  have hg := (good_make k hs hc).history hk n ops
  obtain ⟨c1, e, _, _, _, _, hx⟩ := modify_spec hg.structured a w
  rw [e] at h
  obtain rfl := Except.ok.inj h
  have hi : i < s.entries.length := by
    by_contra hge
    rw [List.getElem?_eq_none (Nat.le_of_not_lt hge)] at hd
    cases hd
  obtain ⟨en, hen⟩ := Option.isSome_iff_exists.mp (hg.structured.isSome hi)
  obtain ⟨d', hd', et⟩ := hg.structured.entry hen
  rw [hd] at hd'
  obtain rfl := Option.some.inj hd'
  obtain ⟨o, ho, h3⟩ := hx i en hen
  have hsrc := accessed_source hg.structured a
  rw [accessed_touched hg.structured] at h3 hsrc
  simp only [Outdated, hen, ho, Option.some.injEq, exists_eq_left', h3]
  refine or_congr_right (exists_congr fun t => and_congr_right fun ht => ?_)
  rw [← et]
  exact covers_entry hs hd (hsrc t ht)

/-- C109: after the value of an input port is fixed, a cache entry is out of date exactly when it was before or one of the
prerequisites declared for it stands for the port. -/
theorem fix_outdates {ds : List Decl} {s : System} {alloc sources : Nat → V} {c c' : Context V} {k : Calc V} {n i p pt : Nat}
    {ops : List (Op V)} {v : V} {d : EntryDecl} (hs : declareAll ds = .ok s)
    (hc : makeContext alloc sources s = .ok c) (hk : Declared s k) (hd : s.entries[i]? = some d)
    (hp : s.inputs[p]? = some pt) (h : fixInputPort p v (history k n ops c) = .ok c') :
    Outdated i c' ↔ Outdated i (history k n ops c) ∨ ∃ q ∈ d.prerequisites, Covers s q pt := by
  have hg := (good_make k hs hc).history hk n ops
  have hport := hg.structured.port p
  rw [hp, eq_comm, Option.map_eq_some_iff] at hport
  obtain ⟨⟨pt', o⟩, hq, rfl⟩ := hport
  obtain ⟨c1, e, _, _, _, _, hx⟩ := fixInputPort_spec hg.structured hq v
  rw [e] at h
  obtain rfl := Except.ok.inj h
  have hi : i < s.entries.length := by
    by_contra hge
    rw [List.getElem?_eq_none (Nat.le_of_not_lt hge)] at hd
    cases hd
  obtain ⟨en, hen⟩ := Option.isSome_iff_exists.mp (hg.structured.isSome hi)
  obtain ⟨d', hd', et⟩ := hg.structured.entry hen
  rw [hd] at hd'
  obtain rfl := Option.some.inj hd'
  obtain ⟨o, ho, h3⟩ := hx i en hen
  have hsrc : s.source pt' := .inr (by simp [System.declared, List.mem_of_getElem? hp])
  simp only [Outdated, hen, ho, Option.some.injEq, exists_eq_left', h3]
  rw [← et, covers_entry hs hd hsrc]

/-- C109: an entry which was just evaluated, and whose caching is not disabled, gives the same result again without
computing anything: the context stays as it is. -/
theorem eval_again {k : Calc V} {m m' i : Nat} {c c' : Context V} {v : V} (h : evalEntry k m i c = (c', .ok v))
    (hd : ∀ en, c'.cache i = some en → en.disabled = false) : evalEntry k (m' + 1) i c' = (c', .ok v) := by
  obtain ⟨en, hen, ho, hv⟩ := Evaluated.stored h
  rw [← hv]
  exact evalEntry_cached hen ho (hd en hen)

/-- Whether entry `i` is out of date after a history. -/
def sumOutdated (ops : List (Op Nat)) (i : Nat) : Option Bool :=
  match makeContext (fun _ => 77) sumSources sumSystem with
  | .error _ => none
  | .ok c => ((history sumCalc 9 ops c).cache i).map Entry.outOfDate

-- a change of time leaves entry 7 alone, a change of z or of the port does not
example : sumOutdated [.eval 7, .modify .time (fun _ => 5)] 7 = some false := by decide +kernel
example : sumOutdated [.eval 7, .modify .vz (fun _ => 5)] 7 = some true := by decide +kernel
example : sumOutdated [.eval 7, .fixInputPort 0 5] 7 = some true := by decide +kernel

end Maliput.Props
