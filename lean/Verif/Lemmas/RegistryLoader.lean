import Verif.Lemmas.RuleRegistry
import Verif.Lemmas.RulebookLoad
import Verif.Model.RegistryLoader
import Verif.Spec.RegistryLoader

set_option autoImplicit false

/-! Lemmas for the loader of rule registries. -/
namespace Maliput.Loader

open Maliput.Rules Maliput.RuleRegistry Maliput.RuleRegistry.Spec Maliput.Yaml Maliput.Yaml.Spec
  Maliput.Loader.Spec

/-! ### Counting keys -/

theorem countDefined_map (l : List (Doc × Doc)) (names : List String) :
    countDefined (some (.map l)) names = .ok (names.filter fun n => (lookup l n).isSome).length := by
  induction names with
  | nil => rfl
  | cons n names ih =>
    rw [countDefined, ih]
    have : Node.field (some (.map l)) n = .ok (lookup l n) := rfl
    rw [this]
    cases h : (lookup l n).isSome
    · simp [bind, Except.bind, pure, Except.pure, Node.isDefined, h]
    · simp [bind, Except.bind, pure, Except.pure, Node.isDefined, h, Nat.add_comm]

theorem scalar_inj : Function.Injective Doc.scalar := fun x y h => by injection h

theorem lookup_isSome {l : List (Doc × Doc)} {n : String} :
    (lookup l n).isSome = true ↔ ∃ e ∈ l, e.1 = .scalar n := by
  constructor
  · intro h
    obtain ⟨v, hv⟩ := Option.isSome_iff_exists.1 h
    exact ⟨_, (lookup_some.1 hv).mem, rfl⟩
  · rintro ⟨e, he, hn⟩
    by_contra hc
    rw [Bool.not_eq_true, Option.isSome_eq_false_iff, Option.isNone_iff_eq_none] at hc
    exact lacksField_map.1 (lookup_none.1 hc) e he hn

/-- As many known keys as pairs: the keys are distinct and known. -/
theorem onlyKeys_iff {l : List (Doc × Doc)} {names : List String} (hn : names.Nodup) :
    l.length = (names.filter fun n => (lookup l n).isSome).length ↔ OnlyKeys (.map l) names := by
  have hnd : ((names.filter fun n => (lookup l n).isSome).map Doc.scalar).Nodup := (hn.filter _).map scalar_inj
  constructor
  · intro h
    have hperm : ((names.filter fun n => (lookup l n).isSome).map Doc.scalar).Perm (l.map (·.1)) := by
      apply List.Subperm.perm_of_length_le
      · apply List.Nodup.subperm hnd
        intro k hk
        obtain ⟨n, hn, rfl⟩ := List.mem_map.1 hk
        obtain ⟨e, he, h1⟩ := lookup_isSome.1 (List.mem_filter.1 hn).2
        exact List.mem_map.2 ⟨e, he, h1⟩
      · simp [h]
    refine ⟨l, rfl, hperm.nodup_iff.1 hnd, fun e he => ?_⟩
    have := hperm.mem_iff.2 (List.mem_map_of_mem (f := (·.1)) he)
    obtain ⟨n, hn, h1⟩ := List.mem_map.1 this
    exact ⟨n, (List.mem_filter.1 hn).1, h1.symm⟩
  · rintro ⟨l', hl, hk, hall⟩
    injection hl with hl
    subst hl
    have hperm : ((names.filter fun n => (lookup l n).isSome).map Doc.scalar).Perm (l.map (·.1)) := by
      rw [List.perm_ext_iff_of_nodup hnd hk]
      intro k
      simp only [List.mem_map, List.mem_filter, lookup_isSome]
      constructor
      · rintro ⟨n, ⟨-, e, he, h⟩, rfl⟩
        exact ⟨e, he, h⟩
      · rintro ⟨e, he, rfl⟩
        obtain ⟨n, hn, h⟩ := hall e he
        exact ⟨n, ⟨hn, e, he, h⟩, h.symm⟩
    have := hperm.length_eq
    simpa using this.symm

theorem isDiscreteValue_map (l : List (Doc × Doc)) :
    ∃ b, isDiscreteValue (some (.map l)) = .ok b ∧ (b = true ↔ IsDiscreteEntry (.map l)) := by
  unfold isDiscreteValue IsDiscreteEntry
  have hf : Node.field (some (.map l)) "value" = .ok (lookup l "value") := rfl
  rw [hf, countDefined_map]
  rw [← onlyKeys_iff (by decide)]
  cases h : lookup l "value" with
  | none =>
    refine ⟨false, rfl, ?_⟩
    simp only [Bool.false_eq_true, false_iff, not_and]
    rintro ⟨v, hv⟩
    rw [lookup_some.2 hv] at h
    cases h
  | some v =>
    refine ⟨_, rfl, ?_⟩
    rw [decide_eq_true_eq, List.filter_cons_of_pos (by rw [h]; rfl), List.length_cons]
    simp only [optionalKeys]
    rw [Nat.add_comm 1]
    constructor
    · exact fun h' => ⟨⟨v, lookup_some.1 h⟩, h'⟩
    · exact fun h' => h'.2

theorem isRangeValue_map (l : List (Doc × Doc)) :
    ∃ b, isRangeValue (some (.map l)) = .ok b ∧ (b = true ↔ IsRangeEntry (.map l)) := by
  unfold isRangeValue IsRangeEntry
  have hf : ∀ k, Node.field (some (.map l)) k = .ok (lookup l k) := fun k => rfl
  rw [hf, hf, countDefined_map]
  rw [← onlyKeys_iff (by decide)]
  cases h : lookup l "range" with
  | none =>
    refine ⟨false, rfl, ?_⟩
    simp only [Bool.false_eq_true, false_iff, not_and]
    rintro ⟨v, hv⟩
    rw [lookup_some.2 hv] at h
    cases h
  | some v =>
    cases h2 : lookup l "description" with
    | none =>
      refine ⟨false, rfl, ?_⟩
      simp only [Bool.false_eq_true, false_iff, not_and]
      rintro - ⟨v, hv⟩
      rw [lookup_some.2 hv] at h2
      cases h2
    | some w =>
      refine ⟨_, rfl, ?_⟩
      rw [decide_eq_true_eq, List.filter_cons_of_pos (by rw [h]; rfl), List.filter_cons_of_pos (by rw [h2]; rfl),
        List.length_cons, List.length_cons]
      simp only [optionalKeys]
      rw [Nat.add_comm 2]
      constructor
      · exact fun h' => ⟨⟨v, lookup_some.1 h⟩, ⟨w, lookup_some.1 h2⟩, h'⟩
      · exact fun h' => h'.2.2

theorem isDiscreteValue_true {n : Node} (h : isDiscreteValue n = .ok true) : ∃ d, n = some d ∧ IsDiscreteEntry d := by
  rcases n with _ | d
  · simp [isDiscreteValue, Node.field, bind, Except.bind] at h
  · cases d with
    | map l =>
      obtain ⟨b, h1, h2⟩ := isDiscreteValue_map l
      rw [h] at h1
      injection h1 with h1
      exact ⟨_, rfl, h2.1 h1.symm⟩
    | _ => simp [isDiscreteValue, Node.field, bind, Except.bind, Node.isDefined, pure, Except.pure] at h

theorem isRangeValue_true {n : Node} (h : isRangeValue n = .ok true) : ∃ d, n = some d ∧ IsRangeEntry d := by
  rcases n with _ | d
  · simp [isRangeValue, Node.field, bind, Except.bind] at h
  · cases d with
    | map l =>
      obtain ⟨b, h1, h2⟩ := isRangeValue_map l
      rw [h] at h1
      injection h1 with h1
      exact ⟨_, rfl, h2.1 h1.symm⟩
    | _ => simp [isRangeValue, Node.field, bind, Except.bind, Node.isDefined, pure, Except.pure] at h

theorem Spec.IsDiscreteEntry.not_range {d : Doc} (h : IsDiscreteEntry d) : ¬ IsRangeEntry d := by
  rintro ⟨⟨v, hv⟩, -⟩
  obtain ⟨-, l, rfl, -, hall⟩ := h
  obtain ⟨n, hn, h1⟩ := hall _ hv.mem
  simp only [List.mem_cons, List.not_mem_nil, or_false] at hn
  injection h1 with h1
  subst h1
  revert hn
  decide

/-! ### The kind of a type -/

/-- What the loop found before. -/
def Consistent (kind : RuleKind) (l : List Doc) : RuleKind → Prop
  | .discrete => (kind = .discrete ∨ (kind = .unknown ∧ ∃ d ∈ l, IsDiscreteEntry d)) ∧ ∀ d ∈ l, ¬ IsRangeEntry d
  | .range => (kind = .range ∨ (kind = .unknown ∧ ∃ d ∈ l, IsRangeEntry d)) ∧ ∀ d ∈ l, ¬ IsDiscreteEntry d
  | .unknown => True

open Classical in
theorem evaluateLoop_map (kind : RuleKind) (m : List (Doc × Doc)) (rest : List Node) :
    evaluateLoop kind (some (.map m) :: rest) =
      if IsDiscreteEntry (.map m) then if kind = .range then .ok .unknown else evaluateLoop .discrete rest
      else if IsRangeEntry (.map m) then if kind = .discrete then .ok .unknown else evaluateLoop .range rest
      else evaluateLoop kind rest := by
  obtain ⟨b, hb, hb'⟩ := isDiscreteValue_map m
  obtain ⟨r, hr, hr'⟩ := isRangeValue_map m
  rw [evaluateLoop, hb, hr]
  simp only [← hb', ← hr']
  cases b <;> cases r <;> rfl

theorem evaluateLoop_ok {l : List Doc} : ∀ {kind k : RuleKind}, k ≠ .unknown →
    (evaluateLoop kind (l.map some) = .ok k ↔ (∀ d ∈ l, ∃ m, d = .map m) ∧ Consistent kind l k) := by
  induction l with
  | nil =>
    intro kind k hk
    simp only [List.map_nil, evaluateLoop, Except.ok.injEq]
    cases k <;> simp_all [Consistent]
  | cons d l ih =>
    intro kind k hk
    rw [List.map_cons]
    by_cases hm : ∃ m, d = .map m
    · obtain ⟨m, rfl⟩ := hm
      rw [evaluateLoop_map]
      by_cases hd : IsDiscreteEntry (.map m)
      · have hr := hd.not_range
        rw [if_pos hd]
        by_cases hkind : kind = .range
        · subst hkind
          rw [if_pos rfl]
          cases k <;> simp_all [Consistent]
        · rw [if_neg hkind, ih hk]
          cases k <;> cases kind <;> simp_all [Consistent]
      · rw [if_neg hd]
        by_cases hr : IsRangeEntry (.map m)
        · rw [if_pos hr]
          by_cases hkind : kind = .discrete
          · subst hkind
            rw [if_pos rfl]
            cases k <;> simp_all [Consistent]
          · rw [if_neg hkind, ih hk]
            cases k <;> cases kind <;> simp_all [Consistent]
        · rw [if_neg hr, ih hk]
          cases k <;> cases kind <;> simp_all [Consistent]
    · have : evaluateLoop kind (some d :: l.map some) = .error .throws := by
        rw [evaluateLoop]
        cases d with
        | map m => exact (hm ⟨m, rfl⟩).elim
        | _ => rfl
      rw [this]
      simp only [reduceCtorEq, List.mem_cons, forall_eq_or_imp, hm, false_and]

theorem evaluateTypeEntry_ok {v : Doc} {k : RuleKind} (hk : k ≠ .unknown) :
    evaluateTypeEntry (some v) = .ok k ↔
      ∃ l, v = .seq l ∧ (∀ d ∈ l, ∃ m, d = .map m) ∧ Consistent .unknown l k := by
  unfold evaluateTypeEntry
  simp only [bind_ok, needSeq_ok, throwUnless_ok, decide_eq_true_eq]
  constructor
  · rintro ⟨_, ⟨l, hl⟩, n, hn, _, hne, h⟩
    injection hl with hl
    subst hl
    rw [nodes_seq, evaluateLoop_ok hk] at h
    exact ⟨l, rfl, h⟩
  · rintro ⟨l, rfl, h⟩
    refine ⟨(), ⟨l, rfl⟩, l.length, rfl, (), ?_, ?_⟩
    · rw [Ne, List.length_eq_zero_iff]
      rintro rfl
      cases k <;> simp_all [Consistent]
    · rw [nodes_seq, evaluateLoop_ok hk]
      exact h

/-! ### Values of types -/

theorem getSeverity_ok {c : Conv} {m : List (Doc × Doc)} {s : ℤ} :
    getSeverity c (some (.map m)) = .ok s ↔ SaysSeverity c (.map m) s := by
  unfold getSeverity SaysSeverity
  simp only [bind_ok]
  constructor
  · rintro ⟨n, hn, h⟩
    rcases field_some_ok.1 hn with ⟨rfl, hlack⟩ | ⟨v, rfl, hf⟩
    · simp only [Node.isDefined, Option.isSome_none, Bool.false_eq_true, if_false, pure_ok] at h
      exact Or.inl ⟨hlack, h.symm⟩
    · simp only [Node.isDefined, Option.isSome_some, if_true, bind_ok, asInt_ok, throwUnless_ok, pure_ok,
        decide_eq_true_eq] at h
      obtain ⟨t, ht, _, h0, rfl⟩ := h
      exact Or.inr ⟨v, hf, ht, h0⟩
  · rintro (⟨hlack, rfl⟩ | ⟨v, hf, ht, h0⟩)
    · exact ⟨none, field_some_ok.2 (Or.inl ⟨rfl, hlack⟩), rfl⟩
    · refine ⟨some v, field_some_ok.2 (Or.inr ⟨v, rfl, hf⟩), ?_⟩
      simp only [Node.isDefined, Option.isSome_some, if_true, bind_ok, asInt_ok, throwUnless_ok, pure_ok,
        decide_eq_true_eq]
      exact ⟨s, ht, (), h0, rfl⟩

theorem getRangeMinMax_ok {c : Conv} {m : List (Doc × Doc)} {p : ℚ × ℚ} :
    getRangeMinMax c (some (.map m)) = .ok p ↔ SaysBounds c (.map m) p.1 p.2 := by
  unfold getRangeMinMax SaysBounds
  simp only [bind_ok]
  constructor
  · rintro ⟨n, hn, h⟩
    split at h
    · next a b =>
      simp only [bind_ok, asDouble_ok, throwUnless_ok, pure_ok, decide_eq_true_eq] at h
      obtain ⟨x, hx, y, hy, _, hle, rfl⟩ := h
      rcases field_some_ok.1 hn with ⟨h, -⟩ | ⟨v, hv, hf⟩
      · cases h
      · injection hv with hv
        subst hv
        exact ⟨a, b, hf, hx, hy, hle⟩
    · cases h
  · rintro ⟨a, b, hf, hx, hy, hle⟩
    refine ⟨_, field_some_ok.2 (Or.inr ⟨_, rfl, hf⟩), ?_⟩
    simp only [bind_ok, asDouble_ok, throwUnless_ok, pure_ok, decide_eq_true_eq]
    exact ⟨p.1, hx, p.2, hy, (), hle, rfl⟩

theorem getText_ok {d : Doc} {k t : String} : getText (some d) k = .ok t ↔ FieldReads d k t := by
  unfold getText
  simp only [bind_ok, required_ok]
  constructor
  · rintro ⟨_, ⟨v, rfl, hf⟩, h⟩
    exact ⟨v, hf, asString_ok.1 h⟩
  · rintro ⟨v, hf, h⟩
    exact ⟨_, ⟨v, rfl, hf⟩, asString_ok.2 h⟩

theorem relatedKeysLoop_ok {l : List Doc} : ∀ {m r : Map String (List String)},
    relatedKeysLoop m (l.map some) = .ok r ↔ ∃ names, List.Forall₂ Reads l names ∧
      r = names.foldl (fun m k => (m.emplace k []).1) m := by
  induction l with
  | nil =>
    intro m r
    simp only [List.map_nil, relatedKeysLoop, Except.ok.injEq, List.forall₂_nil_left_iff]
    constructor
    · rintro rfl
      exact ⟨[], rfl, rfl⟩
    · rintro ⟨_, rfl, rfl⟩
      rfl
  | cons d l ih =>
    intro m r
    rw [List.map_cons, relatedKeysLoop]
    simp only [bind_ok, asString_ok, ih]
    constructor
    · rintro ⟨k, hk, names, hn, rfl⟩
      exact ⟨k :: names, .cons hk hn, rfl⟩
    · rintro ⟨_, h, rfl⟩
      cases h with
      | cons h1 h2 => exact ⟨_, h1, _, h2, rfl⟩

theorem foldl_emplace_get (names : List String) : ∀ (m : Map String (List String)) (k : String),
    (names.foldl (fun m k => (m.emplace k []).1) m).get? k =
      (m.get? k).or (if k ∈ names then some [] else none) := by
  induction names with
  | nil => intro m k; simp
  | cons n names ih =>
    intro m k
    rw [List.foldl_cons, ih, Map.get?_emplace]
    by_cases h : k = n
    · subst h
      cases h' : m.get? k <;> simp
    · simp [h]

theorem getRelatedKeys_ok {l : List (Doc × Doc)} {key : String} {m : Map String (List String)}
    (h : getRelatedKeys (some (.map l)) key = .ok m) : SaysGroups (.map l) key m := by
  unfold getRelatedKeys at h
  rw [bind_ok] at h
  obtain ⟨n, hn, h⟩ := h
  rcases field_some_ok.1 hn with ⟨rfl, hlack⟩ | ⟨v, rfl, hf⟩
  · simp only [Node.isDefined, Option.isSome_none, Bool.false_eq_true, if_false, pure_ok] at h
    subst h
    exact Or.inl ⟨hlack, rfl⟩
  · simp only [Node.isDefined, Option.isSome_some, if_true, bind_ok, needSeq_ok] at h
    obtain ⟨_, ⟨l', hl⟩, h⟩ := h
    injection hl with hl
    subst hl
    rw [nodes_seq, relatedKeysLoop_ok] at h
    obtain ⟨names, hn, rfl⟩ := h
    refine Or.inr ⟨l', names, hf, hn, fun k ids => ?_⟩
    rw [foldl_emplace_get]
    by_cases hk : k ∈ names <;> simp [hk, eq_comm]

theorem getRelatedKeys_of {l : List (Doc × Doc)} {key : String} {m : Map String (List String)}
    (h : SaysGroups (.map l) key m) : ∃ m', getRelatedKeys (some (.map l)) key = .ok m' ∧
      ∀ k, m'.get? k = m.get? k := by
  unfold getRelatedKeys
  rcases h with ⟨hlack, he⟩ | ⟨l', names, hf, hn, hm⟩
  · refine ⟨.empty, ?_, fun k => ?_⟩
    · rw [bind_ok]
      exact ⟨none, field_some_ok.2 (Or.inl ⟨rfl, hlack⟩), rfl⟩
    · rw [show m = .empty from map_ext he]
  · refine ⟨names.foldl (fun m k => (m.emplace k []).1) .empty, ?_, fun k => ?_⟩
    · rw [bind_ok]
      refine ⟨_, field_some_ok.2 (Or.inr ⟨_, rfl, hf⟩), ?_⟩
      simp only [Node.isDefined, Option.isSome_some, if_true, bind_ok, needSeq_ok]
      refine ⟨(), ⟨l', rfl⟩, ?_⟩
      rw [nodes_seq, relatedKeysLoop_ok]
      exact ⟨names, hn, rfl⟩
    · rw [foldl_emplace_get]
      apply Option.ext
      intro ids
      rw [hm]
      by_cases hk : k ∈ names <;> simp [hk, eq_comm]

theorem field_asString_ok {d : Doc} {k t : String} (hd : ∃ m, d = .map m) :
    (Node.field (some d) k >>= fun n => Node.asString n) = .ok t ↔ FieldReads d k t := by
  obtain ⟨m, rfl⟩ := hd
  rw [bind_ok]
  constructor
  · rintro ⟨n, hn, h⟩
    rcases field_some_ok.1 hn with ⟨rfl, -⟩ | ⟨v, rfl, hf⟩
    · cases h
    · exact ⟨v, hf, asString_ok.1 h⟩
  · rintro ⟨v, hf, h⟩
    exact ⟨some v, field_some_ok.2 (Or.inr ⟨v, rfl, hf⟩), asString_ok.2 h⟩

theorem typeDiscreteValue_says {c : Conv} {d : Doc} {v : DiscreteValue} (hd : ∃ m, d = .map m)
    (h : typeDiscreteValue c (some d) = .ok v) : SaysTypeValue c d v := by
  obtain ⟨m, rfl⟩ := hd
  simp only [typeDiscreteValue, bind_ok, pure_ok] at h
  obtain ⟨s, hs, r, hr, i, hi, n, hn, t, ht, rfl⟩ := h
  exact ⟨⟨getSeverity_ok.1 hs, getRelatedKeys_ok hr, getRelatedKeys_ok hi⟩,
    (field_asString_ok ⟨m, rfl⟩).1 (bind_ok.2 ⟨n, hn, ht⟩)⟩

theorem typeRange_says {c : Conv} {d : Doc} {v : Range} (hd : ∃ m, d = .map m)
    (h : typeRange c (some d) = .ok v) : SaysTypeRange c d v := by
  obtain ⟨m, rfl⟩ := hd
  simp only [typeRange, bind_ok, pure_ok] at h
  obtain ⟨p, hp, s, hs, r, hr, i, hi, t, ht, rfl⟩ := h
  exact ⟨⟨getSeverity_ok.1 hs, getRelatedKeys_ok hr, getRelatedKeys_ok hi⟩, getRangeMinMax_ok.1 hp,
    getText_ok.1 ht⟩

/-! ### Values that differ only in the order of their groups -/

/-- Same severity and the same groups. -/
def SameState (a b : State) : Prop :=
  a.severity = b.severity ∧ (∀ k, a.relatedRules.get? k = b.relatedRules.get? k) ∧
    ∀ k, a.relatedUniqueIds.get? k = b.relatedUniqueIds.get? k

theorem within_congr {a a' b b' : Map String (List String)} (ha : ∀ k, a.get? k = a'.get? k)
    (hb : ∀ k, b.get? k = b'.get? k) : Rules.Spec.Within a b ↔ Rules.Spec.Within a' b' := by
  simp only [Rules.Spec.Within, Map.has, Rules.Spec.ids, ha, hb]

theorem stateEq_congr {a a' b b' : State} (ha : SameState a a') (hb : SameState b b') : a.eq b = a'.eq b' := by
  rw [Bool.eq_iff_iff, state_eq_iff', state_eq_iff', ha.1, hb.1, within_congr ha.2.1 hb.2.1,
    within_congr ha.2.2 hb.2.2]

theorem pairwise_congr {α β : Type} {f : α → α → Bool} {f' : β → β → Bool} {R : α → β → Prop}
    (hf : ∀ a a' b b', R a a' → R b b' → f a b = f' a' b') {l : List α} {l' : List β} (h : List.Forall₂ R l l')
    (hp : l'.Pairwise fun a b => f' a b = false ∧ f' b a = false) :
    l.Pairwise fun a b => f a b = false ∧ f b a = false := by
  induction h with
  | nil => exact .nil
  | @cons a a' l l' h1 h2 ih =>
    rw [List.pairwise_cons] at hp ⊢
    refine ⟨fun b hb => ?_, ih hp.2⟩
    obtain ⟨b', hb', hr⟩ : ∃ b' ∈ l', R b b' := by
      clear ih hp
      induction h2 with
      | nil => cases hb
      | cons h3 _ ih =>
        rcases List.mem_cons.1 hb with rfl | hb
        · exact ⟨_, by simp, h3⟩
        · obtain ⟨b', h4, h5⟩ := ih hb
          exact ⟨b', by simp [h4], h5⟩
    rw [hf _ _ _ _ h1 hr, hf _ _ _ _ hr h1]
    exact hp.1 b' hb'

theorem typeState_of {c : Conv} {m : List (Doc × Doc)} {s : State} (h : SaysTypeState c (.map m) s) :
    ∃ r i, getSeverity c (some (.map m)) = .ok s.severity ∧ getRelatedKeys (some (.map m)) "related_rules" = .ok r ∧
      getRelatedKeys (some (.map m)) "related_unique_ids" = .ok i ∧ SameState ⟨s.severity, r, i⟩ s := by
  obtain ⟨r, hr, hr'⟩ := getRelatedKeys_of h.rules
  obtain ⟨i, hi, hi'⟩ := getRelatedKeys_of h.ids
  exact ⟨r, i, getSeverity_ok.2 h.severity, hr, hi, rfl, hr', hi'⟩

theorem typeDiscreteValue_of {c : Conv} {d : Doc} {v : DiscreteValue} (h : SaysTypeValue c d v) :
    ∃ v', typeDiscreteValue c (some d) = .ok v' ∧ v'.value = v.value ∧ SameState v'.toState v.toState := by
  obtain ⟨w, hw, -⟩ := h.value
  obtain ⟨m, rfl⟩ := hw.isMap
  obtain ⟨r, i, h1, h2, h3, h4⟩ := typeState_of h.toSaysTypeState
  obtain ⟨n, hn, hn'⟩ := bind_ok.1 ((field_asString_ok ⟨m, rfl⟩).2 h.value)
  refine ⟨⟨⟨v.severity, r, i⟩, v.value⟩, ?_, rfl, h4⟩
  simp only [typeDiscreteValue, bind_ok, pure_ok]
  exact ⟨_, h1, r, h2, i, h3, n, hn, v.value, hn', rfl⟩

theorem typeRange_of {c : Conv} {d : Doc} {v : Range} (h : SaysTypeRange c d v) :
    ∃ v', typeRange c (some d) = .ok v' ∧ v'.description = v.description ∧ v'.min = v.min ∧ v'.max = v.max ∧
      SameState v'.toState v.toState := by
  obtain ⟨w, hw, -⟩ := h.description
  obtain ⟨m, rfl⟩ := hw.isMap
  obtain ⟨r, i, h1, h2, h3, h4⟩ := typeState_of h.toSaysTypeState
  refine ⟨⟨⟨v.severity, r, i⟩, v.description, v.min, v.max⟩, ?_, rfl, rfl, rfl, h4⟩
  simp only [typeRange, bind_ok, pure_ok]
  exact ⟨(v.min, v.max), getRangeMinMax_ok.2 h.bounds, _, h1, r, h2, i, h3, v.description,
    getText_ok.2 h.description, rfl⟩

theorem forall₂_exists {α β γ : Type} {R : α → β → Prop} {S : α → γ → Prop} {T : γ → β → Prop}
    (h : ∀ a b, R a b → ∃ c, S a c ∧ T c b) {l : List α} {l' : List β} (hl : List.Forall₂ R l l') :
    ∃ m, List.Forall₂ S l m ∧ List.Forall₂ T m l' := by
  induction hl with
  | nil => exact ⟨[], .nil, .nil⟩
  | cons h1 _ ih =>
    obtain ⟨c, h2, h3⟩ := h _ _ h1
    obtain ⟨m, h4, h5⟩ := ih
    exact ⟨c :: m, .cons h2 h4, .cons h3 h5⟩

/-! ### Registering types -/

theorem registerOne_ok {r r' : Registry} {op : Op} : Outcome.get (step r op) = .ok r' ↔
    (Acceptable op ∧ getPossibleStates r (typeOf op) = none) ∧ r' = (step r op).1 := by
  obtain ⟨h1, h2⟩ := step_spec r op
  by_cases h : Acceptable op ∧ getPossibleStates r (typeOf op) = none
  · have h3 := (h1 h).1
    generalize step r op = o at *
    obtain ⟨b1, e⟩ := o
    dsimp only at h3
    subst h3
    simp only [Outcome.get, Except.ok.injEq]
    exact ⟨fun h' => ⟨h, h'.symm⟩, fun h => h.2.symm⟩
  · rw [h2 h]
    simp only [Outcome.get, reduceCtorEq, false_iff, not_and]
    exact fun h' => (h h').elim

/-- The registrations the entry of a type leads to. -/
def TypeOp (c : Conv) (e : Doc × Doc) : Op → Prop
  | .discrete t values => t ≠ "" ∧ Reads e.1 t ∧ ∃ l, e.2 = .seq l ∧ (∀ d ∈ l, ∃ m, d = .map m) ∧
      Consistent .unknown l .discrete ∧ List.Forall₂ (fun d v => typeDiscreteValue c (some d) = .ok v) l values
  | .range t ranges => t ≠ "" ∧ Reads e.1 t ∧ ∃ l, e.2 = .seq l ∧ (∀ d ∈ l, ∃ m, d = .map m) ∧
      Consistent .unknown l .range ∧ List.Forall₂ (fun d v => typeRange c (some d) = .ok v) l ranges

theorem addType_ok {c : Conv} {r r' : Registry} {e : Doc × Doc} :
    addType c r ⟨none, some e.1, some e.2⟩ = .ok r' ↔ ∃ op, TypeOp c e op ∧ Outcome.get (step r op) = .ok r' := by
  unfold addType
  rw [bind_ok]
  constructor
  · rintro ⟨k, hk, h⟩
    cases k with
    | unknown => cases h
    | discrete =>
      obtain ⟨l, hl, hm, hc⟩ := (evaluateTypeEntry_ok (by simp)).1 hk
      simp only [bind_ok] at h
      rw [hl] at h
      obtain ⟨values, hv, t, ht, h⟩ := h
      rw [mapM_seq] at hv
      obtain ⟨ht1, ht2⟩ := asId_ok.1 ht
      exact ⟨.discrete t values, ⟨ht2, ht1, l, hl, hm, hc, hv⟩, h⟩
    | range =>
      obtain ⟨l, hl, hm, hc⟩ := (evaluateTypeEntry_ok (by simp)).1 hk
      simp only [bind_ok] at h
      rw [hl] at h
      obtain ⟨values, hv, t, ht, h⟩ := h
      rw [mapM_seq] at hv
      obtain ⟨ht1, ht2⟩ := asId_ok.1 ht
      exact ⟨.range t values, ⟨ht2, ht1, l, hl, hm, hc, hv⟩, h⟩
  · rintro ⟨op, h, h'⟩
    cases op with
    | discrete t values =>
      obtain ⟨ht2, ht1, l, hl, hm, hc, hv⟩ := h
      refine ⟨.discrete, (evaluateTypeEntry_ok (by simp)).2 ⟨l, hl, hm, hc⟩, ?_⟩
      simp only [bind_ok]
      rw [hl]
      exact ⟨values, mapM_seq.2 hv, t, asId_ok.2 ⟨ht1, ht2⟩, h'⟩
    | range t values =>
      obtain ⟨ht2, ht1, l, hl, hm, hc, hv⟩ := h
      refine ⟨.range, (evaluateTypeEntry_ok (by simp)).2 ⟨l, hl, hm, hc⟩, ?_⟩
      simp only [bind_ok]
      rw [hl]
      exact ⟨values, mapM_seq.2 hv, t, asId_ok.2 ⟨ht1, ht2⟩, h'⟩

theorem addTypes_ok {c : Conv} {types : List (Doc × Doc)} : ∀ {r r' : Registry},
    (Node.items (some (.map types))).foldlM (addType c) r = .ok r' ↔
      ∃ ops, List.Forall₂ (TypeOp c) types ops ∧ (∀ op ∈ ops, Acceptable op) ∧ (ops.map typeOf).Nodup ∧
        (∀ op ∈ ops, getPossibleStates r (typeOf op) = none) ∧ r' = ops.foldl (fun r op => (step r op).1) r := by
  induction types with
  | nil =>
    intro r r'
    simp only [Node.items, List.map_nil, List.foldlM_nil, pure_ok, List.forall₂_nil_left_iff]
    constructor
    · rintro rfl
      exact ⟨[], rfl, by simp, by simp, by simp, rfl⟩
    · rintro ⟨_, rfl, -, -, -, h⟩
      exact h.symm
  | cons e types ih =>
    intro r r'
    have hi : Node.items (some (.map (e :: types))) = ⟨none, some e.1, some e.2⟩ :: Node.items (some (.map types)) := rfl
    rw [hi, List.foldlM_cons, bind_ok]
    have key : ∀ op, Acceptable op ∧ getPossibleStates r (typeOf op) = none → ∀ t,
        getPossibleStates (step r op).1 t = none ↔ t ≠ typeOf op ∧ getPossibleStates r t = none := by
      intro op h t
      rw [((step_spec r op).1 h).2 t]
      by_cases ht : t = typeOf op <;> simp [ht]
    constructor
    · rintro ⟨r1, h1, h2⟩
      obtain ⟨op, h3, h4⟩ := addType_ok.1 h1
      obtain ⟨h5, rfl⟩ := registerOne_ok.1 h4
      obtain ⟨ops, h6, h7, h8, h9, rfl⟩ := ih.1 h2
      refine ⟨op :: ops, .cons h3 h6, ?_, ?_, ?_, rfl⟩
      · intro o ho
        rcases List.mem_cons.1 ho with rfl | ho
        exacts [h5.1, h7 o ho]
      · rw [List.map_cons, List.nodup_cons]
        refine ⟨fun hm => ?_, h8⟩
        obtain ⟨o, ho, he⟩ := List.mem_map.1 hm
        exact ((key op h5 _).1 (h9 o ho)).1 he
      · intro o ho
        rcases List.mem_cons.1 ho with rfl | ho
        · exact h5.2
        · exact ((key op h5 _).1 (h9 o ho)).2
    · rintro ⟨_, h, h7, h8, h9, rfl⟩
      cases h with
      | @cons _ op _ ops h3 h6 =>
        have h5 : Acceptable op ∧ getPossibleStates r (typeOf op) = none := ⟨h7 op (by simp), h9 op (by simp)⟩
        rw [List.map_cons, List.nodup_cons] at h8
        refine ⟨(step r op).1, addType_ok.2 ⟨op, h3, registerOne_ok.2 ⟨h5, rfl⟩⟩, ih.2 ⟨ops, h6,
          fun o ho => h7 o (by simp [ho]), h8.2, fun o ho => (key op h5 _).2 ⟨fun he => ?_, h9 o (by simp [ho])⟩, rfl⟩⟩
        exact h8.1 (List.mem_map.2 ⟨o, ho, he⟩)

theorem loadRegistry_ok {c : Conv} {root : Doc} {r : Registry} : loadRegistry c root = .ok r ↔
    ∃ types ops, IsRegistry root types ∧ List.Forall₂ (TypeOp c) types ops ∧ (∀ op ∈ ops, Acceptable op) ∧
      (ops.map typeOf).Nodup ∧ r = run ops := by
  unfold loadRegistry
  simp only [bind_ok, required_ok]
  constructor
  · rintro ⟨_, _, _, ⟨v, rfl, hf⟩, _, hm, h⟩
    obtain ⟨types, ht⟩ := needMap_ok.1 hm
    injection ht with ht
    subst ht
    obtain ⟨ops, h1, h2, h3, -, h4⟩ := addTypes_ok.1 h
    exact ⟨types, ops, hf, h1, h2, h3, h4⟩
  · rintro ⟨types, ops, hf, h1, h2, h3, rfl⟩
    obtain ⟨l, rfl⟩ := Spec.HasField.isMap hf
    exact ⟨(), needMap_ok.2 ⟨l, rfl⟩, _, ⟨_, rfl, hf⟩, (), needMap_ok.2 ⟨_, rfl⟩, addTypes_ok.2 ⟨ops, h1, h2, h3,
      fun op _ => rfl, rfl⟩⟩

theorem typeOp_says {c : Conv} {e : Doc × Doc} {op : Op} (h : TypeOp c e op) : SaysType c e.1 e.2 op := by
  cases op with
  | discrete t values =>
    obtain ⟨h1, h2, l, hl, hm, ⟨hc, hn⟩, hv⟩ := h
    refine ⟨h1, h2, l, hl, hm, ?_, hn, ?_⟩
    · rcases hc with hc | hc
      · cases hc
      · exact hc.2
    · exact ((List.forall₂_and_left _ _).2 ⟨hm, hv⟩).imp fun d v h => typeDiscreteValue_says h.1 h.2
  | range t values =>
    obtain ⟨h1, h2, l, hl, hm, ⟨hc, hn⟩, hv⟩ := h
    refine ⟨h1, h2, l, hl, hm, ?_, hn, ?_⟩
    · rcases hc with hc | hc
      · cases hc
      · exact hc.2
    · exact ((List.forall₂_and_left _ _).2 ⟨hm, hv⟩).imp fun d v h => typeRange_says h.1 h.2

theorem typeOp_of {c : Conv} {e : Doc × Doc} {op : Op} (h : SaysType c e.1 e.2 op) (ha : Acceptable op) :
    ∃ op', TypeOp c e op' ∧ Acceptable op' ∧ typeOf op' = typeOf op := by
  cases op with
  | discrete t values =>
    obtain ⟨h1, h2, l, hl, hm, hex, hn, hv⟩ := h
    obtain ⟨values', h3, h4⟩ := forall₂_exists (fun d v hd => typeDiscreteValue_of hd) hv
    refine ⟨.discrete t values', ⟨h1, h2, l, hl, hm, ⟨.inr ⟨rfl, hex⟩, hn⟩, h3⟩, ⟨?_, ?_⟩, rfl⟩
    · intro he
      subst he
      cases h4
      exact ha.1 rfl
    · refine pairwise_congr (f' := DiscreteValue.eq) (fun a a' b b' h h' => ?_) h4 ha.2
      simp only [DiscreteValue.eq, stateEq_congr h.2 h'.2, h.1, h'.1]
  | range t values =>
    obtain ⟨h1, h2, l, hl, hm, hex, hn, hv⟩ := h
    obtain ⟨values', h3, h4⟩ := forall₂_exists (fun d v hd => typeRange_of hd) hv
    refine ⟨.range t values', ⟨h1, h2, l, hl, hm, ⟨.inr ⟨rfl, hex⟩, hn⟩, h3⟩, ⟨?_, ?_⟩, rfl⟩
    · intro he
      subst he
      cases h4
      exact ha.1 rfl
    · refine pairwise_congr (f' := Range.eq) (fun a a' b b' h h' => ?_) h4 ha.2
      simp only [Range.eq, stateEq_congr h.2.2.2 h'.2.2.2, h.1, h'.1, h.2.1, h.2.2.1, h'.2.1, h'.2.2.1]

end Maliput.Loader
