import Verif.Lemmas.TrafficLightLoader
import Verif.Model.PhaseRingLoader
import Verif.Props.Phases
import Verif.Spec.PhaseRingLoader

set_option autoImplicit false

/-! Each function of the phase ring loaders accepts exactly what the document format says. -/
namespace Maliput.Loader

open Maliput.Rules Maliput.TrafficLights Maliput.Phases Maliput.Yaml Maliput.Yaml.Spec Maliput.Loader.Spec

/-! ### Assignments to a map -/

section Assign
variable {κ α : Type} [DecidableEq κ]

/-- The assignments, one after the other. -/
def assign (m : Map κ α) (l : List (κ × α)) : Map κ α := l.foldl (fun m e => m.set e.1 e.2) m

/-- The insertions, one after the other. -/
def insertAll (m : Map κ α) (l : List (κ × α)) : Map κ α := l.foldl (fun m e => (m.emplace e.1 e.2).1) m

theorem assign_append (m : Map κ α) (a b : List (κ × α)) : assign m (a ++ b) = assign (assign m a) b := by
  simp [assign]

theorem insertAll_append (m : Map κ α) (a b : List (κ × α)) : insertAll m (a ++ b) = insertAll (insertAll m a) b := by
  simp [insertAll]

omit [DecidableEq κ] in
theorem lastOf_cons {e : κ × α} {l : List (κ × α)} {k : κ} {v : α} :
    LastOf (e :: l) k v ↔ LastOf l k v ∨ ((∀ x ∈ l, x.1 ≠ k) ∧ e = (k, v)) := by
  constructor
  · rintro ⟨as, bs, h, hn⟩
    cases as with
    | nil =>
      simp only [List.nil_append, List.cons.injEq] at h
      obtain ⟨rfl, rfl⟩ := h
      exact Or.inr ⟨hn, rfl⟩
    | cons a as =>
      simp only [List.cons_append, List.cons.injEq] at h
      obtain ⟨rfl, rfl⟩ := h
      exact Or.inl ⟨as, bs, rfl, hn⟩
  · rintro (⟨as, bs, rfl, hn⟩ | ⟨hn, rfl⟩)
    · exact ⟨e :: as, bs, rfl, hn⟩
    · exact ⟨[], l, rfl, hn⟩

omit [DecidableEq κ] in
theorem firstOf_cons {e : κ × α} {l : List (κ × α)} {k : κ} {v : α} :
    FirstOf (e :: l) k v ↔ e = (k, v) ∨ (e.1 ≠ k ∧ FirstOf l k v) := by
  constructor
  · rintro ⟨as, bs, h, hn⟩
    cases as with
    | nil =>
      simp only [List.nil_append, List.cons.injEq] at h
      obtain ⟨rfl, rfl⟩ := h
      exact Or.inl rfl
    | cons a as =>
      simp only [List.cons_append, List.cons.injEq] at h
      obtain ⟨rfl, rfl⟩ := h
      exact Or.inr ⟨hn e (by simp), as, bs, rfl, fun x hx => hn x (by simp [hx])⟩
  · rintro (rfl | ⟨he, as, bs, rfl, hn⟩)
    · exact ⟨[], l, rfl, by simp⟩
    · exact ⟨e :: as, bs, rfl, by simpa using ⟨he, fun a b hab => hn (a, b) hab⟩⟩

omit [DecidableEq κ] in
theorem lastOf_nil {k : κ} {v : α} : ¬ LastOf ([] : List (κ × α)) k v := by
  rintro ⟨as, bs, h, -⟩
  simp at h

omit [DecidableEq κ] in
theorem firstOf_nil {k : κ} {v : α} : ¬ FirstOf ([] : List (κ × α)) k v := by
  rintro ⟨as, bs, h, -⟩
  simp at h

theorem assign_get (l : List (κ × α)) : ∀ (m : Map κ α) (k : κ) (v : α),
    (assign m l).get? k = some v ↔ LastOf l k v ∨ ((∀ e ∈ l, e.1 ≠ k) ∧ m.get? k = some v) := by
  induction l with
  | nil => intro m k v; simp [assign, lastOf_nil]
  | cons e l ih =>
    intro m k v
    have : assign m (e :: l) = assign (m.set e.1 e.2) l := rfl
    rw [this, ih, Map.get?_set, lastOf_cons]
    obtain ⟨a, b⟩ := e
    by_cases hk : k = a
    · subst hk
      simp only [if_true, Option.some.injEq, Prod.mk.injEq, true_and, List.mem_cons, forall_eq_or_imp, ne_eq,
        not_true_eq_false, false_and, or_false]
    · have hk' : a ≠ k := fun h => hk h.symm
      simp only [hk, if_false, Prod.mk.injEq, hk', false_and, and_false, or_false, List.mem_cons, forall_eq_or_imp,
        ne_eq, not_false_eq_true, true_and]

theorem insertAll_get (l : List (κ × α)) : ∀ (m : Map κ α) (k : κ) (v : α),
    (insertAll m l).get? k = some v ↔ m.get? k = some v ∨ (m.get? k = none ∧ FirstOf l k v) := by
  induction l with
  | nil => intro m k v; simp [insertAll, firstOf_nil]
  | cons e l ih =>
    intro m k v
    have : insertAll m (e :: l) = insertAll (m.emplace e.1 e.2).1 l := rfl
    rw [this, ih, firstOf_cons]
    obtain ⟨a, b⟩ := e
    by_cases hm : m.get? a = none
    · rw [(Map.emplace_new b hm).2]
      by_cases hk : k = a
      · subst hk
        simp [hm]
      · have hk' : a ≠ k := fun h => hk h.symm
        simp [hk, hk']
    · rw [Map.emplace_old hm]
      by_cases hk : k = a
      · subst hk
        simp [hm]
      · have hk' : a ≠ k := fun h => hk h.symm
        simp [hk']

omit [DecidableEq κ] in
theorem exists_lastOf {l : List (κ × α)} {k : κ} : (∃ v, LastOf l k v) ↔ k ∈ l.map (·.1) := by
  induction l with
  | nil => simp [lastOf_nil]
  | cons e l ih =>
    simp only [lastOf_cons, exists_or, ih, List.map_cons, List.mem_cons]
    obtain ⟨a, b⟩ := e
    by_cases hk : k ∈ l.map (·.1)
    · simp [hk]
    · have : ∀ x ∈ l, x.1 ≠ k := fun x hx h => hk (List.mem_map.2 ⟨x, hx, h⟩)
      simp only [hk, false_or, or_false, Prod.mk.injEq, exists_and_left, exists_eq', and_true, eq_comm, ne_eq]
      constructor
      · rintro ⟨-, h⟩; exact h
      · intro h; exact ⟨fun x hx h' => this x hx h'.symm, h⟩

omit [DecidableEq κ] in
theorem exists_firstOf {l : List (κ × α)} {k : κ} : (∃ v, FirstOf l k v) ↔ k ∈ l.map (·.1) := by
  induction l with
  | nil => simp [firstOf_nil]
  | cons e l ih =>
    obtain ⟨a, b⟩ := e
    simp only [firstOf_cons, exists_or, exists_and_left, ih, List.map_cons, List.mem_cons, Prod.mk.injEq, exists_eq',
      and_true]
    constructor
    · rintro (rfl | ⟨-, h⟩)
      · exact Or.inl rfl
      · exact Or.inr h
    · rintro (rfl | h)
      · exact Or.inl rfl
      · by_cases ha : a = k
        · exact Or.inl ha
        · exact Or.inr ⟨ha, h⟩

theorem assign_keys (m : Map κ α) (l : List (κ × α)) (k : κ) :
    (∃ v, (assign m l).get? k = some v) ↔ k ∈ l.map (·.1) ∨ ∃ v, m.get? k = some v := by
  simp only [assign_get, exists_or, exists_lastOf, exists_and_left]
  by_cases hk : k ∈ l.map (·.1)
  · simp [hk]
  · have : ∀ x ∈ l, x.1 ≠ k := fun x hx h => hk (List.mem_map.2 ⟨x, hx, h⟩)
    simp only [hk, false_or]
    exact ⟨fun h => h.2, fun h => ⟨this, h⟩⟩

theorem insertAll_keys (m : Map κ α) (l : List (κ × α)) (k : κ) :
    (∃ v, (insertAll m l).get? k = some v) ↔ k ∈ l.map (·.1) ∨ ∃ v, m.get? k = some v := by
  simp only [insertAll_get, exists_or, exists_firstOf, exists_and_left]
  cases hm : m.get? k <;> simp

end Assign

/-- A loop in which every step makes a list of changes makes all of them, in order. -/
theorem foldlM_changes {σ ι τ : Type} {act : σ → List τ → σ} (hnil : ∀ s, act s [] = s)
    (happ : ∀ s a b, act s (a ++ b) = act (act s a) b) {step : σ → ι → Except Err σ} {R : ι → List τ → Prop}
    {xs : List ι} (h : ∀ x ∈ xs, ∀ s s', step s x = .ok s' ↔ ∃ l, R x l ∧ s' = act s l) : ∀ {s s' : σ},
    xs.foldlM step s = .ok s' ↔ ∃ ls, List.Forall₂ R xs ls ∧ s' = act s ls.flatten := by
  induction xs with
  | nil =>
    intro s s'
    simp only [List.foldlM_nil, pure_ok, List.forall₂_nil_left_iff, exists_eq_left, List.flatten_nil, hnil]
    exact eq_comm
  | cons x xs ih =>
    intro s s'
    simp only [List.foldlM_cons, bind_ok, h x (by simp)]
    constructor
    · rintro ⟨_, ⟨l, hl, rfl⟩, hr⟩
      obtain ⟨ls, h1, rfl⟩ := (ih fun y hy => h y (by simp [hy])).1 hr
      exact ⟨l :: ls, .cons hl h1, by rw [List.flatten_cons, happ]⟩
    · rintro ⟨_, h1, rfl⟩
      cases h1 with
      | @cons _ l _ ls hl h1 =>
        exact ⟨_, ⟨l, hl, rfl⟩, (ih fun y hy => h y (by simp [hy])).2 ⟨ls, h1, by rw [List.flatten_cons, happ]⟩⟩

/-- The same if every step makes one change. -/
theorem foldlM_change {σ ι τ : Type} {act : σ → List τ → σ} (hnil : ∀ s, act s [] = s)
    (happ : ∀ s a b, act s (a ++ b) = act (act s a) b) {step : σ → ι → Except Err σ} {R : ι → τ → Prop}
    {xs : List ι} (h : ∀ x ∈ xs, ∀ s s', step s x = .ok s' ↔ ∃ t, R x t ∧ s' = act s [t]) {s s' : σ} :
    xs.foldlM step s = .ok s' ↔ ∃ ts, List.Forall₂ R xs ts ∧ s' = act s ts := by
  rw [foldlM_changes hnil happ (R := fun x l => ∃ t, R x t ∧ l = [t])
    (fun x hx s s' => (h x hx s s').trans ⟨fun ⟨t, h1, h2⟩ => ⟨[t], ⟨t, h1, rfl⟩, h2⟩,
      fun ⟨_, ⟨t, h1, rfl⟩, h2⟩ => ⟨t, h1, h2⟩⟩)]
  clear h
  have key : ∀ {xs : List ι} {ls : List (List τ)}, List.Forall₂ (fun x l => ∃ t, R x t ∧ l = [t]) xs ls ↔
      ∃ ts, List.Forall₂ R xs ts ∧ ls = ts.map fun t => [t] := by
    intro xs
    induction xs with
    | nil => intro ls; simp
    | cons x xs ih =>
      intro ls
      constructor
      · intro h
        cases h with
        | cons h1 h2 =>
          obtain ⟨t, ht, rfl⟩ := h1
          obtain ⟨ts, h3, rfl⟩ := ih.1 h2
          exact ⟨t :: ts, .cons ht h3, rfl⟩
      · rintro ⟨_, h, rfl⟩
        cases h with
        | @cons _ t _ ts h1 h2 => exact .cons ⟨t, h1, rfl⟩ (ih.2 ⟨ts, h2, rfl⟩)
  constructor
  · rintro ⟨ls, h1, rfl⟩
    obtain ⟨ts, h2, rfl⟩ := key.1 h1
    exact ⟨ts, h2, by rw [← List.flatMap_def, List.flatMap_singleton']⟩
  · rintro ⟨ts, h1, rfl⟩
    exact ⟨_, key.2 ⟨ts, h1, rfl⟩, by rw [← List.flatMap_def, List.flatMap_singleton']⟩

theorem items_map (l : List (Doc × Doc)) : Node.items (some (.map l)) = l.map fun e => ⟨none, some e.1, some e.2⟩ := rfl

/-! ### The states of bulbs -/

theorem defaultState_ok {b : Bulb} {s : BulbState} : b.defaultState = .ok s ↔ IsDefaultState b s := by
  have hv : ∀ s, b.isValidState s = decide (s ∈ b.states) := by
    intro s
    simp [Bulb.isValidState]
  unfold Bulb.defaultState IsDefaultState
  simp only [List.find?, hv]
  by_cases h1 : BulbState.off ∈ b.states
  · simp [h1, eq_comm]
  · by_cases h2 : BulbState.blinking ∈ b.states
    · simp [h1, h2, eq_comm]
    · by_cases h3 : BulbState.on ∈ b.states
      · simp [h1, h2, h3, eq_comm]
      · simp [h1, h2, h3]

theorem built_default {b : Bulb} (h : TrafficLights.Spec.BuiltBulb b) : ∃ s, b.defaultState = .ok s := by
  simp only [defaultState_ok, IsDefaultState]
  obtain ⟨id, pose, color, type, arrow, states, box, h⟩ := h
  obtain ⟨-, rfl⟩ := bulb_make_ok.1 h
  have hne : ∃ s, s ∈ (if states = none ∨ states = some [] then [BulbState.off, .on] else states.getD []) := by
    split
    · exact ⟨.off, by simp⟩
    · rename_i hn
      rcases states with _ | (_ | ⟨x, l⟩)
      · simp at hn
      · simp at hn
      · exact ⟨x, by simp⟩
  simp only at hne ⊢
  generalize (if states = none ∨ states = some [] then [BulbState.off, .on] else states.getD []) = l at hne
  by_cases h1 : BulbState.off ∈ l
  · exact ⟨_, Or.inl ⟨h1, rfl⟩⟩
  · by_cases h2 : BulbState.blinking ∈ l
    · exact ⟨_, Or.inr (Or.inl ⟨h1, h2, rfl⟩)⟩
    · obtain ⟨s, hs⟩ := hne
      cases s
      · exact (h1 hs).elim
      · exact ⟨_, Or.inr (Or.inr ⟨h1, h2, hs, rfl⟩)⟩
      · exact (h2 hs).elim

theorem bulbStep_ok {t : TrafficLight} {g : BulbGroup} {l : List (Doc × Doc)} {b : Bulb}
    (hb : TrafficLights.Spec.BuiltBulb b) (m m' : Map UniqueBulbId BulbState) :
    bulbStep t g (some (.map l)) m b = .ok m' ↔ ∃ a : UniqueBulbId × BulbState,
      (a.1 = ⟨t.id, g.id, b.id⟩ ∧ SaysBulbState (.map l) b a.2) ∧ m' = assign m [a] := by
  obtain ⟨s0, hs0⟩ := built_default hb
  unfold bulbStep
  rw [hs0]
  have hb0 : ∀ {β : Type} (f : BulbState → Except Err β), (Except.ok s0 >>= f) = f s0 := fun f => rfl
  rw [hb0, field_bind]
  simp only [Node.isDefined, Option.isSome_none, Bool.false_eq_true, if_false, Option.isSome_some, if_true, bind_ok,
    asMapped_ok states_ok, pure_ok, Bulb.uniqueId, SaysBulbState]
  constructor
  · rintro (⟨h1, _, rfl, _, h2, rfl⟩ | ⟨v, hv, s, hs, _, h2, rfl⟩)
    · obtain rfl := Except.ok.inj h2
      exact ⟨(_, _), ⟨rfl, Or.inr ⟨h1, defaultState_ok.1 hs0⟩⟩, rfl⟩
    · obtain rfl := Except.ok.inj h2
      exact ⟨(_, _), ⟨rfl, Or.inl ⟨v, hv, hs⟩⟩, rfl⟩
  · rintro ⟨⟨u, s⟩, ⟨h1, ⟨v, hv, hs⟩ | ⟨h2, h3⟩⟩, rfl⟩
    · simp only at h1 hs
      subst h1
      exact Or.inr ⟨v, hv, s, hs, _, rfl, rfl⟩
    · simp only at h1 h3
      subst h1
      rw [← defaultState_ok, hs0] at h3
      obtain rfl := Except.ok.inj h3
      exact Or.inl ⟨h2, s0, rfl, _, rfl, rfl⟩

theorem confirmBulbsExist_ok {g : BulbGroup} {l : List (Doc × Doc)} {u : Unit} :
    confirmBulbsExist g (some (.map l)) = .ok u ↔
      ∀ x ∈ l, ∃ bulb, Reads x.1 bulb ∧ bulb ≠ "" ∧ ∃ b, g.getBulb bulb = some b := by
  unfold confirmBulbsExist
  rw [forM_ok, items_map]
  simp only [List.mem_map, forall_exists_index, and_imp, forall_apply_eq_imp_iff₂, bind_ok, asId_ok, throwUnless_ok,
    Option.isSome_iff_exists]
  exact forall₂_congr fun x _ => exists_congr fun id => and_assoc

theorem groupStep_ok {t : TrafficLight} (ht : TrafficLights.Spec.BuiltLight t) (e : Doc × Doc)
    (m m' : Map UniqueBulbId BulbState) :
    groupStep t m ⟨none, some e.1, some e.2⟩ = .ok m' ↔ ∃ l, SaysGroupStates t e l ∧ m' = assign m l := by
  unfold groupStep SaysGroupStates
  simp only [bind_ok (x := Node.asId _), asId_ok]
  constructor
  · rintro ⟨id, ⟨h1, h2⟩, h⟩
    split at h
    · cases h
    · rename_i g hg
      have hbg := ht.2 g (List.mem_of_find?_eq_some hg)
      rw [needMap_bind] at h
      obtain ⟨⟨l, hl⟩, h⟩ := h
      rw [bind_ok] at h
      obtain ⟨_, hc, h⟩ := h
      rw [hl] at hc h
      rw [foldlM_change (act := assign) (fun _ => rfl) assign_append
        (fun b hb => bulbStep_ok (hbg.2 b hb))] at h
      obtain ⟨states, h3, rfl⟩ := h
      exact ⟨states, ⟨id, g, l, h1, h2, hg, hl, confirmBulbsExist_ok.1 hc, by rw [hl]; exact h3⟩, rfl⟩
  · rintro ⟨states, ⟨id, g, l, h1, h2, hg, hl, hc, h3⟩, rfl⟩
    have hbg := ht.2 g (List.mem_of_find?_eq_some hg)
    refine ⟨id, ⟨h1, h2⟩, ?_⟩
    rw [hg]
    simp only
    rw [hl] at h3 ⊢
    refine needMap_bind.2 ⟨⟨l, rfl⟩, bind_ok.2 ⟨(), confirmBulbsExist_ok.2 hc, ?_⟩⟩
    rw [foldlM_change (act := assign) (fun _ => rfl) assign_append
        (fun b hb => bulbStep_ok (hbg.2 b hb))]
    exact ⟨states, h3, rfl⟩

theorem lightStep_ok {lights : TrafficLights.Book} (hl : BuiltLights lights) (e : Doc × Doc)
    (m m' : Map UniqueBulbId BulbState) :
    lightStep lights m ⟨none, some e.1, some e.2⟩ = .ok m' ↔
      ∃ l, SaysLightStates lights e l ∧ m' = assign m l := by
  have hfold : ∀ {t : TrafficLight} (_ : TrafficLights.Spec.BuiltLight t) {l : List (Doc × Doc)},
      (Node.items (some (.map l))).foldlM (groupStep t) m = .ok m' ↔
        ∃ groups, List.Forall₂ (SaysGroupStates t) l groups ∧ m' = assign m groups.flatten := by
    intro t ht l
    rw [items_map, List.foldlM_map]
    exact foldlM_changes (act := assign) (fun _ => rfl) assign_append (fun e _ => groupStep_ok ht e)
  unfold lightStep SaysLightStates
  simp only [bind_ok (x := Node.asId _), asId_ok]
  constructor
  · rintro ⟨id, ⟨h1, h2⟩, h⟩
    split at h
    · cases h
    · rename_i t ht
      rw [needMap_bind] at h
      obtain ⟨⟨l, hle⟩, h⟩ := h
      rw [hle, hfold (hl _ _ ht)] at h
      obtain ⟨groups, h3, rfl⟩ := h
      exact ⟨_, ⟨id, t, l, groups, h1, h2, ht, hle, h3, rfl⟩, rfl⟩
  · rintro ⟨_, ⟨id, t, l, groups, h1, h2, ht, hle, h3, rfl⟩, rfl⟩
    refine ⟨id, ⟨h1, h2⟩, ?_⟩
    rw [ht]
    simp only
    rw [hle]
    refine needMap_bind.2 ⟨⟨l, rfl⟩, ?_⟩
    rw [hfold (hl _ _ ht)]
    exact ⟨groups, h3, rfl⟩

theorem loadBulbStates_ok {lights : TrafficLights.Book} (hl : BuiltLights lights) {l : List (Doc × Doc)}
    {m : Option (Map UniqueBulbId BulbState)} :
    loadBulbStates lights (some (.map l)) = .ok m ↔
      ∃ states, SaysBulbStates lights (.map l) states ∧ m = states.map (assign .empty) := by
  unfold loadBulbStates SaysBulbStates
  rw [field_bind]
  simp only [Node.isDefined, Option.isSome_none, Bool.false_eq_true, if_false, Option.isSome_some, if_true, pure_ok]
  have hfold : ∀ {l : List (Doc × Doc)} {m' : Map UniqueBulbId BulbState},
      (Node.items (some (.map l))).foldlM (lightStep lights) .empty = .ok m' ↔
        ∃ per, List.Forall₂ (SaysLightStates lights) l per ∧ m' = assign .empty per.flatten := by
    intro l m'
    rw [items_map, List.foldlM_map]
    exact foldlM_changes (act := assign) (fun _ => rfl) assign_append (fun e _ => lightStep_ok hl e)
  constructor
  · rintro (⟨h1, rfl⟩ | ⟨v, hv, h⟩)
    · exact ⟨none, Or.inl ⟨h1, rfl⟩, rfl⟩
    · rw [needMap_bind] at h
      obtain ⟨⟨l', rfl⟩, h⟩ := h
      rw [bind_ok] at h
      obtain ⟨m', h, hm⟩ := h
      rw [pure_ok] at hm
      subst hm
      obtain ⟨per, h1, rfl⟩ := hfold.1 h
      exact ⟨_, Or.inr ⟨l', per, hv, h1, rfl⟩, rfl⟩
  · rintro ⟨_, ⟨h1, rfl⟩ | ⟨l', per, hv, h1, rfl⟩, rfl⟩
    · exact Or.inl ⟨h1, rfl⟩
    · exact Or.inr ⟨_, hv, needMap_bind.2 ⟨⟨l', rfl⟩, bind_ok.2 ⟨_, hfold.2 ⟨per, h1, rfl⟩, rfl⟩⟩⟩

theorem hasBulbStates_assign (states : Option (List (UniqueBulbId × BulbState))) :
    HasBulbStates states (states.map (assign .empty)) := by
  cases states with
  | none => exact Or.inl ⟨rfl, rfl⟩
  | some l =>
    refine Or.inr ⟨l, _, rfl, rfl, fun u s => ?_⟩
    rw [assign_get]
    simp

/-! ### The next phases -/

theorem verifyPhaseExists_ok {phases : List Phase} {id : String} {u : Unit} :
    verifyPhaseExists phases id = .ok u ↔ id ∈ phases.map (·.id) := by
  simp [verifyPhaseExists, throwUnless_ok]

theorem buildNextPhase_ok {c : Conv} {phases : List Phase} {d : Doc} {n : NextPhase} :
    buildNextPhase c phases (some d) = .ok n ↔ SaysNext c d n ∧ n.id ∈ phases.map (·.id) := by
  unfold buildNextPhase
  simp only [needMap_bind, required_bind]
  constructor
  · rintro ⟨⟨l, rfl⟩, iv, hiv, h⟩
    rw [bind_ok] at h
    obtain ⟨id, hid, h⟩ := h
    rw [bind_ok] at h
    obtain ⟨_, hex, h⟩ := h
    rw [field_bind] at h
    obtain ⟨h1, h2⟩ := asId_ok.1 hid
    rcases h with ⟨hd, h⟩ | ⟨v, hd, h⟩
    · simp only [Node.isDefined, Option.isSome_none, Bool.false_eq_true, if_false, pure_ok] at h
      subst h
      exact ⟨⟨⟨iv, hiv, h1⟩, h2, Or.inl ⟨hd, rfl⟩⟩, verifyPhaseExists_ok.1 hex⟩
    · simp only [Node.isDefined, Option.isSome_some, if_true, bind_ok, asDouble_ok, pure_ok] at h
      obtain ⟨q, hq, rfl⟩ := h
      exact ⟨⟨⟨iv, hiv, h1⟩, h2, Or.inr ⟨v, q, hd, hq, rfl⟩⟩, verifyPhaseExists_ok.1 hex⟩
  · rintro ⟨h, hex⟩
    obtain ⟨iv, hiv, h1⟩ := h.id
    obtain ⟨l, rfl⟩ := hiv.isMap
    refine ⟨⟨l, rfl⟩, iv, hiv, bind_ok.2 ⟨n.id, asId_ok.2 ⟨h1, h.named⟩, bind_ok.2 ⟨(), verifyPhaseExists_ok.2 hex,
      field_bind.2 ?_⟩⟩⟩
    obtain ⟨id, dur⟩ := n
    rcases h.duration with ⟨hd, h2⟩ | ⟨v, q, hd, hq, h2⟩
    · simp only at h2
      subst h2
      exact Or.inl ⟨hd, rfl⟩
    · simp only at h2
      subst h2
      refine Or.inr ⟨v, hd, ?_⟩
      simp only [Node.isDefined, Option.isSome_some, if_true, bind_ok, asDouble_ok, pure_ok]
      exact ⟨q, hq, rfl⟩

/-- A pair of the graph. -/
def SaysEdge (c : Conv) (e : Doc × Doc) (x : String × List NextPhase) : Prop :=
  Reads e.1 x.1 ∧ x.1 ≠ "" ∧ ∃ l', e.2 = .seq l' ∧ List.Forall₂ (SaysNext c) l' x.2

theorem nextStep_ok {c : Conv} {phases : List Phase} (e : Doc × Doc) (m m' : Map String (List NextPhase)) :
    nextStep c phases m ⟨none, some e.1, some e.2⟩ = .ok m' ↔ ∃ x : String × List NextPhase,
      (SaysEdge c e x ∧ x.1 ∈ phases.map (·.id) ∧ ∀ y ∈ x.2, y.id ∈ phases.map (·.id)) ∧ m' = insertAll m [x] := by
  unfold nextStep SaysEdge
  simp only [bind_ok (x := Node.asId _), asId_ok, bind_ok (x := verifyPhaseExists _ _), verifyPhaseExists_ok,
    needSeq_bind]
  constructor
  · rintro ⟨id, ⟨h1, h2⟩, _, h3, ⟨l, hl⟩, h⟩
    rw [bind_ok] at h
    obtain ⟨next, hn, h⟩ := h
    rw [pure_ok] at h
    subst h
    rw [hl, mapM_seq] at hn
    simp only [buildNextPhase_ok] at hn
    obtain ⟨h4, h5⟩ := forall₂_and.1 hn
    exact ⟨(id, next), ⟨⟨h1, h2, l, hl, h4⟩, h3, h5⟩, rfl⟩
  · rintro ⟨x, ⟨⟨h1, h2, l, hl, h4⟩, h3, h5⟩, rfl⟩
    refine ⟨x.1, ⟨h1, h2⟩, (), h3, ⟨l, hl⟩, bind_ok.2 ⟨x.2, ?_, rfl⟩⟩
    rw [hl, mapM_seq]
    simp only [buildNextPhase_ok]
    exact forall₂_and.2 ⟨h4, h5⟩

/-- All phases of the graph are given. -/
def Known (phases : List String) (next : Option (List (String × List NextPhase))) : Prop :=
  ∀ n, next = some n → ∀ x ∈ n, x.1 ∈ phases ∧ ∀ y ∈ x.2, y.id ∈ phases

theorem saysGraph_iff {c : Conv} {d : Doc} {next : Option (List (String × List NextPhase))} :
    SaysGraph c d next ↔ (LacksField d "PhaseTransitionGraph" ∧ next = none) ∨
    ∃ l n, HasField d "PhaseTransitionGraph" (.map l) ∧ next = some n ∧ List.Forall₂ (SaysEdge c) l n := Iff.rfl

theorem buildNextPhases_of {c : Conv} {phases : List Phase} {d : Doc} {next : Option (List (String × List NextPhase))}
    (h : SaysGraph c d next) (hk : Known (phases.map (·.id)) next) :
    buildNextPhases c phases (some d) = .ok (next.map (insertAll .empty)) := by
  unfold buildNextPhases
  rcases saysGraph_iff.1 h with ⟨h1, rfl⟩ | ⟨l, n, h1, rfl, h2⟩
  · obtain ⟨l, rfl, -⟩ := id h1
    exact field_bind.2 (Or.inl ⟨h1, rfl⟩)
  · obtain ⟨l0, rfl⟩ := h1.isMap
    refine field_bind.2 (Or.inr ⟨_, h1, ?_⟩)
    simp only [Node.isDefined, Option.isSome_some, if_true]
    refine needMap_bind.2 ⟨⟨l0, rfl⟩, bind_ok.2 ⟨insertAll .empty n, ?_, rfl⟩⟩
    rw [items_map, List.foldlM_map, foldlM_change (act := insertAll) (fun _ => rfl) insertAll_append
      (fun e _ => nextStep_ok e)]
    exact ⟨n, forall₂_and.2 ⟨h2, hk n rfl⟩, rfl⟩

theorem buildNextPhases_says {c : Conv} {phases : List Phase} {l : List (Doc × Doc)}
    {o : Option (Map String (List NextPhase))} (h : buildNextPhases c phases (some (.map l)) = .ok o) :
    o = some .empty ∨ ∃ next, SaysGraph c (.map l) next ∧ Known (phases.map (·.id)) next ∧
      o = next.map (insertAll .empty) := by
  unfold buildNextPhases at h
  simp only [saysGraph_iff]
  rcases field_bind.1 h with ⟨h1, h⟩ | ⟨v, h1, h⟩
  · simp only [Node.isDefined, Option.isSome_none, Bool.false_eq_true, if_false, pure_ok] at h
    subst h
    exact Or.inr ⟨none, Or.inl ⟨h1, rfl⟩, fun n hn => (by cases hn), rfl⟩
  · simp only [Node.isDefined, Option.isSome_some, if_true, needMap_bind] at h
    obtain ⟨-, h⟩ := h
    rw [bind_ok] at h
    obtain ⟨m, hm, h⟩ := h
    rw [pure_ok] at h
    subst h
    cases v with
    | null => left; simpa [Node.items, pure, Except.pure, eq_comm] using hm
    | scalar s => left; simpa [Node.items, pure, Except.pure, eq_comm] using hm
    | seq l' =>
      cases l' with
      | nil => left; simpa [Node.items, pure, Except.pure, eq_comm] using hm
      | cons x l' =>
        have hi : Node.items (some (.seq (x :: l'))) = ⟨some x, none, none⟩ :: l'.map fun y => ⟨some y, none, none⟩ := rfl
        rw [hi, List.foldlM_cons, bind_ok] at hm
        obtain ⟨_, hm, -⟩ := hm
        cases hm
    | map l' =>
      rw [items_map, List.foldlM_map, foldlM_change (act := insertAll) (fun _ => rfl) insertAll_append
        (fun e _ => nextStep_ok e)] at hm
      obtain ⟨n, h2, rfl⟩ := hm
      obtain ⟨h3, h4⟩ := forall₂_and.1 h2
      refine Or.inr ⟨some n, Or.inr ⟨l', n, h1, rfl, h3⟩, ?_, rfl⟩
      rintro _ ⟨⟩
      exact h4

end Maliput.Loader
