import Verif.Lemmas.PhaseRingBuild

set_option autoImplicit false

/-! The book that the phase ring loaders build. -/
namespace Maliput.Loader

open Maliput.Rules Maliput.TrafficLights Maliput.Phases Maliput.Phases.Spec Maliput.Yaml Maliput.Yaml.Spec
open Maliput.Loader.Spec

/-! ### Rings -/

theorem phasesFrom_ids (xs : List PhaseSays) : ∀ st, (phasesFrom st xs).map (·.id) = xs.map (·.id) := by
  induction xs with
  | nil => intro st; rfl
  | cons x xs ih => intro st; simp [phasesFrom, ih]

theorem mem_phasesFrom (xs : List PhaseSays) : ∀ (st : Map String DiscreteValue) (p : Phase),
    p ∈ phasesFrom st xs ↔ ∃ before x after, xs = before ++ x :: after ∧
      p = ⟨x.id, .empty, assign st ((before ++ [x]).flatMap (·.named)), x.bulbs.map (assign .empty)⟩ := by
  induction xs with
  | nil => intro st p; simp [phasesFrom]
  | cons x xs ih =>
    intro st p
    simp only [phasesFrom, List.mem_cons, ih]
    constructor
    · rintro (rfl | ⟨before, y, after, rfl, rfl⟩)
      · exact ⟨[], x, xs, rfl, by simp⟩
      · exact ⟨x :: before, y, after, rfl, by simp [assign_append]⟩
    · rintro ⟨before, y, after, h, rfl⟩
      cases before with
      | nil =>
        simp only [List.nil_append, List.cons.injEq] at h
        obtain ⟨rfl, rfl⟩ := h
        exact Or.inl (by simp)
      | cons z before =>
        simp only [List.cons_append, List.cons.injEq] at h
        obtain ⟨rfl, rfl⟩ := h
        exact Or.inr ⟨before, y, after, rfl, by simp [assign_append]⟩

theorem sameBulbs_iff {p q : Phase} {a b : Option (List (UniqueBulbId × BulbState))}
    (hp : p.bulbStates = a.map (assign .empty)) (hq : q.bulbStates = b.map (assign .empty)) :
    SameBulbs p q ↔ SameBulbsSaid a b := by
  unfold SameBulbs SameBulbsSaid
  rw [hp, hq]
  refine or_congr (by simp) ?_
  constructor
  · rintro ⟨m, n, h1, h2, h3⟩
    obtain ⟨l, rfl, rfl⟩ := Option.map_eq_some_iff.1 h1
    obtain ⟨l', rfl, rfl⟩ := Option.map_eq_some_iff.1 h2
    refine ⟨l, l', rfl, rfl, fun u => ?_⟩
    simpa [assign_keys] using h3 u
  · rintro ⟨l, l', rfl, rfl, h⟩
    refine ⟨_, _, rfl, rfl, fun u => ?_⟩
    simpa [assign_keys] using h u

theorem nextKeys_iff {ids : List String} {n : List (String × List NextPhase)} :
    (∀ k, (∃ l, (insertAll .empty n).get? k = some l) ↔ k ∈ ids) ↔ ∀ k, k ∈ n.map (·.1) ↔ k ∈ ids := by
  simp [insertAll_keys]

/-- When the ring can be built from its phases. -/
theorem ring_exists {rs : List (String × DiscreteValueRule)} {rm : Map String DiscreteValueRule}
    {st : Map String DiscreteValue} (hf : Fits rs rm st) {xs : List PhaseSays}
    (hx : ∀ x ∈ xs, ∀ a ∈ x.named, ∃ r, (a.1, r) ∈ rs) {id : String}
    {next : Option (List (String × List NextPhase))} :
    (∃ r, Ring.make id (phasesFrom st xs) (next.map (insertAll .empty)) = .ok r) ↔
      xs ≠ [] ∧ (xs.map (·.id)).Nodup ∧
      (∀ p ps, xs = p :: ps → p.bulbs ≠ none → ∀ q ∈ ps, SameBulbsSaid p.bulbs q.bulbs) ∧
      ∀ n, next = some n → ∀ k, k ∈ n.map (·.1) ↔ k ∈ xs.map (·.id) := by
  cases xs with
  | nil =>
    simp only [phasesFrom, Props.ring_make_empty, ne_eq, not_true_eq_false, false_and, iff_false]
    rintro ⟨r, h⟩
    cases h
  | cons x xs =>
    have hids := phasesFrom_ids (x :: xs) st
    have hmem := mem_phasesFrom (x :: xs) st
    have hkeys : ∀ l : List PhaseSays, (∀ y ∈ l, y ∈ x :: xs) → ∀ k,
        (∃ v, (assign st (l.flatMap (·.named))).get? k = some v) ↔ ∃ r, (k, r) ∈ rs := by
      intro l hl k
      refine (hf.assign fun a ha => ?_).keys k
      obtain ⟨y, hy, ha⟩ := List.mem_flatMap.1 ha
      exact hx y (hl y hy) a ha
    simp only [phasesFrom] at hids hmem ⊢
    rw [Props.ring_make_iff]
    generalize hp0 : (⟨x.id, .empty, assign st x.named, x.bulbs.map (assign .empty)⟩ : Phase) = p0 at hids hmem ⊢
    have hxs : ∀ p, p ∈ phasesFrom (assign st x.named) xs ↔ ∃ before y after, xs = before ++ y :: after ∧
      p = ⟨y.id, .empty, assign st ((x :: before ++ [y]).flatMap (·.named)), y.bulbs.map (assign .empty)⟩ := by
      intro p
      rw [mem_phasesFrom]
      simp [assign_append]
    rw [hids]
    simp only [ne_eq, reduceCtorEq, not_false_eq_true, true_and]
    refine and_congr_right fun _ => ?_
    have h1 : ∀ p ∈ phasesFrom (assign st x.named) xs, SameRules p0 p := by
      intro p hp
      obtain ⟨before, y, after, h, rfl⟩ := (hxs p).1 hp
      subst hp0
      refine ⟨fun k => Iff.rfl, fun k => ?_⟩
      have a := hkeys [x] (by simp) k
      have b := hkeys (x :: before ++ [y]) (by rw [h]; intro z hz; simp at hz ⊢; tauto) k
      rw [List.flatMap_singleton] at a
      exact a.trans b.symm
    rw [and_iff_right h1]
    refine and_congr ?_ ?_
    · have hb : p0.bulbStates ≠ none ↔ x.bulbs ≠ none := by rw [← hp0]; simp
      constructor
      · rintro h _ _ ⟨⟩ hn q hq
        obtain ⟨before, after, rfl⟩ := List.append_of_mem hq
        exact (sameBulbs_iff (by rw [← hp0]) rfl).1 (h (hb.2 hn) _ ((hxs _).2 ⟨before, q, after, rfl, rfl⟩))
      · intro h hn p hp
        obtain ⟨before, y, after, he, rfl⟩ := (hxs p).1 hp
        exact (sameBulbs_iff (by rw [← hp0]) rfl).2 (h x xs rfl (hb.1 hn) y (by rw [he]; simp))
    · have hk : ∀ k, (∃ p ∈ p0 :: phasesFrom (assign st x.named) xs, p.id = k) ↔ k ∈ (x :: xs).map (·.id) := by
        intro k
        rw [← hids]
        exact List.mem_map.symm
      simp only [hk]
      cases next with
      | none => simp
      | some n => simp only [Option.map_some, Option.some.injEq, forall_eq', nextKeys_iff]

/-- Which ring is built from the phases. -/
theorem ring_is {rs : List (String × DiscreteValueRule)} {st : Map String DiscreteValue}
    (hst : ∀ k v, st.get? k = some v ↔ ∃ r, (k, r) ∈ rs ∧ IsDefaultValue r.states v) {x : RingSays}
    (hrs : x.rules = rs) {r : Ring}
    (h : Ring.make x.id (phasesFrom st x.phases) (x.next.map (insertAll .empty)) = .ok r) : IsRing x r := by
  obtain ⟨h1, -, h3, -, -, -⟩ := Props.ring_wellFormed_partial _ _ _ _ h
  have hn := ((Phases.make_ok _ _ _ _).1 h).2.2.2.2.2
  refine ⟨h1, ?_, ?_, ?_⟩
  · intro before p after he
    refine ⟨_, (h3 p.id _).2 ⟨(mem_phasesFrom _ _ _).2 ⟨before, p, after, he, rfl⟩, rfl⟩, rfl, fun k => rfl, ?_, ?_⟩
    · intro k v
      rw [assign_get, hst, hrs]
      rfl
    · exact hasBulbStates_assign _
  · intro k p hp
    obtain ⟨hp', rfl⟩ := (h3 k p).1 hp
    have : p.id ∈ x.phases.map (·.id) := by
      rw [← phasesFrom_ids x.phases st]
      exact List.mem_map.2 ⟨p, hp', rfl⟩
    obtain ⟨y, hy, hyp⟩ := List.mem_map.1 this
    exact ⟨y, hy, hyp⟩
  · intro k l
    unfold Ring.getNextPhases
    rw [Map.at!_ok, hn]
    cases x.next with
    | none =>
      simp only [Option.map_none, Option.getD_none, noNext_keys, Map.get?_empty, true_and, reduceCtorEq, false_and,
        exists_false, or_false]
      have hk : (∃ p ∈ phasesFrom st x.phases, p.id = k) ↔ k ∈ x.phases.map (·.id) := by
        rw [← phasesFrom_ids x.phases st]
        exact List.mem_map.symm
      simp only [hk]
      by_cases hkk : k ∈ x.phases.map (·.id)
      · simp only [hkk, if_true, Option.some.injEq, true_and, eq_comm]
      · simp [hkk]
    | some n =>
      simp only [Option.map_some, Option.getD_some, insertAll_get, Map.get?_empty, reduceCtorEq, true_and, false_or,
        false_and, Option.some.injEq, exists_eq_left']

theorem saysRing_rules {rulebook : Rulebook.Book} {lights : TrafficLights.Book} {c : Conv} {d : Doc} {x : RingSays}
    (h : SaysRing rulebook lights c d x) : ∃ l, HasField d "Rules" (.seq l) ∧ SaysRules rulebook l x.rules := h.rules

theorem fits_of {rulebook : Rulebook.Book} {l : List Doc} {rs : List (String × DiscreteValueRule)}
    (h : SaysRules rulebook l rs) {st : Map String DiscreteValue}
    (hst : defaultStates (insertAll .empty rs) = .ok st) :
    (∀ k v, st.get? k = some v ↔ ∃ r, (k, r) ∈ rs ∧ IsDefaultValue r.states v) ∧
      ((∀ r ∈ rs, ∃ v, IsDefaultValue r.2.states v) ∧ Fits rs (insertAll .empty rs) st) := by
  have h1 : ∀ k v, st.get? k = some v ↔ ∃ r, (k, r) ∈ rs ∧ IsDefaultValue r.states v := by
    intro k v
    rw [defaultStates_ok hst]
    simp only [h.get]
  have h2 : ∀ r ∈ rs, ∃ v, IsDefaultValue r.2.states v := by
    intro r hr
    unfold defaultStates at hst
    rw [foldlM_change (act := insertAll) (R := fun (e : String × DiscreteValueRule) (x : String × DiscreteValue) =>
      x.1 = e.1 ∧ IsDefaultValue e.2.states x.2) (fun _ => rfl) insertAll_append] at hst
    · obtain ⟨ts, h1, -⟩ := hst
      obtain ⟨x, -, -, hx⟩ := forall₂_mem_left h1 (Map.get?_eq_some.1 ((h.get _ _).2 hr))
      exact ⟨_, hx⟩
    · intro e _ m m'
      simp only [bind_ok, defaultValue_ok, pure_ok]
      constructor
      · rintro ⟨v, hv, rfl⟩
        exact ⟨(e.1, v), ⟨rfl, hv⟩, rfl⟩
      · rintro ⟨⟨k, v⟩, ⟨h1, h2⟩, rfl⟩
        simp only at h1 h2
        subst h1
        exact ⟨v, h2, rfl⟩
  refine ⟨h1, h2, h.get, fun k => ?_⟩
  simp only [h1]
  constructor
  · rintro ⟨v, r, hr, -⟩
    exact ⟨r, hr⟩
  · rintro ⟨r, hr⟩
    obtain ⟨v, hv⟩ := h2 _ hr
    exact ⟨v, r, hr, hv⟩

theorem saysRing_iff {rulebook : Rulebook.Book} {lights : TrafficLights.Book} {c : Conv} {d : Doc} {x : RingSays} :
    SaysRing rulebook lights c d x ↔ FieldReads d "ID" x.id ∧ x.id ≠ "" ∧
      (∃ l, HasField d "Rules" (.seq l) ∧ SaysRules rulebook l x.rules) ∧
      (∃ l, HasField d "Phases" (.seq l) ∧ List.Forall₂ (SaysPhase x.rules lights) l x.phases) ∧ SaysGraph c d x.next :=
  ⟨fun h => ⟨h.id, h.idNotEmpty, h.rules, h.phases, h.next⟩,
    fun h => ⟨h.1, h.2.1, h.2.2.1, h.2.2.2.1, h.2.2.2.2⟩⟩

theorem buildPhaseRing_says {rulebook : Rulebook.Book} {lights : TrafficLights.Book} {c : Conv}
    (hl : BuiltLights lights) {d : Doc} {r : Ring} (h : buildPhaseRing rulebook lights c (some d) = .ok r) :
    ∃ x, SaysRing rulebook lights c d x ∧ ValidRing x ∧ IsRing x r ∧ Valid r := by
  unfold buildPhaseRing at h
  simp only [needMap_bind, required_bind] at h
  obtain ⟨⟨l, rfl⟩, iv, hiv, h⟩ := h
  rw [bind_ok] at h
  obtain ⟨id, hid, h⟩ := h
  rw [field_bind] at h
  rcases h with ⟨-, h⟩ | ⟨rv, hrv, h⟩
  · rw [bind_ok] at h
    obtain ⟨_, h, -⟩ := h
    cases h
  rw [bind_ok] at h
  obtain ⟨rm, hrm, h⟩ := h
  obtain ⟨rl, rs, rfl, hrs, rfl⟩ := getRules_ok.1 hrm
  rw [bind_ok] at h
  obtain ⟨st, hst, h⟩ := h
  obtain ⟨h1, h2, hf⟩ := fits_of hrs hst
  rw [required_bind] at h
  obtain ⟨pv, hpv, h⟩ := h
  rw [needSeq_bind] at h
  obtain ⟨⟨pl, rfl⟩, h⟩ := h
  rw [bind_ok] at h
  obtain ⟨s', hs', h⟩ := h
  obtain ⟨xs, hxs, rfl⟩ := (phaseSteps_ok hl hf).1 hs'
  simp only [List.nil_append] at h
  rw [bind_ok] at h
  obtain ⟨o, ho, h⟩ := h
  have hx : ∀ x ∈ xs, ∀ a ∈ x.named, ∃ r, (a.1, r) ∈ rs := by
    intro x hx
    obtain ⟨d, -, hd⟩ := forall₂_mem_right hxs hx
    exact hd.rule
  obtain ⟨hid1, hid2⟩ := asId_ok.1 hid
  rcases buildNextPhases_says ho with rfl | ⟨next, hn, hk, rfl⟩
  · obtain ⟨⟨p0, ps, h3, -⟩, -, h4, -⟩ := (Phases.make_ok _ _ _ _).1 h
    have := (h4 .empty rfl).1
    rw [h3] at this
    cases this
  · obtain ⟨h3, h4, h5, h6⟩ := (ring_exists hf hx).1 ⟨r, h⟩
    refine ⟨⟨id, rs, xs, next⟩, saysRing_iff.2 ⟨⟨iv, hiv, hid1⟩, hid2, ⟨rl, hrv, hrs⟩, ⟨pl, hpv, hxs⟩, hn⟩,
      ⟨h2, h3, h4, h5, fun n hnn => ⟨h6 n hnn, fun y hy z hz => ?_⟩⟩,
      ring_is h1 (x := ⟨id, rs, xs, next⟩) rfl h, _, _, _, h⟩
    rw [phasesFrom_ids] at hk
    exact (hk n hnn y hy).2 z hz

theorem buildPhaseRing_of {rulebook : Rulebook.Book} {lights : TrafficLights.Book} {c : Conv}
    (hl : BuiltLights lights) {d : Doc} {x : RingSays} (h : SaysRing rulebook lights c d x) (hv : ValidRing x) :
    ∃ r, buildPhaseRing rulebook lights c (some d) = .ok r ∧ IsRing x r := by
  obtain ⟨⟨iv, hiv, hid⟩, hne, ⟨rl, hrl, hrs⟩, ⟨pl, hpl, hxs⟩, hn⟩ := saysRing_iff.1 h
  obtain ⟨l, rfl⟩ := hiv.isMap
  obtain ⟨st, hst⟩ := defaultStates_of (rm := insertAll .empty x.rules) fun k r hr =>
    hv.rules (k, r) ((hrs.get _ _).1 hr)
  obtain ⟨h1, h2, hf⟩ := fits_of hrs hst
  have hx : ∀ y ∈ x.phases, ∀ a ∈ y.named, ∃ r, (a.1, r) ∈ x.rules := by
    intro y hy
    obtain ⟨d, -, hd⟩ := forall₂_mem_right hxs hy
    exact hd.rule
  obtain ⟨r, hr⟩ := (ring_exists hf hx (id := x.id) (next := x.next)).2
    ⟨hv.nonempty, hv.phases, hv.bulbs, fun n hn => (hv.next n hn).1⟩
  refine ⟨r, ?_, ring_is h1 rfl hr⟩
  unfold buildPhaseRing
  refine needMap_bind.2 ⟨⟨l, rfl⟩, required_bind.2 ⟨iv, hiv, bind_ok.2 ⟨x.id, asId_ok.2 ⟨hid, hne⟩, field_bind.2
    (Or.inr ⟨_, hrl, bind_ok.2 ⟨_, getRules_ok.2 ⟨rl, x.rules, rfl, hrs, rfl⟩, bind_ok.2 ⟨st, hst, required_bind.2 ⟨_, hpl,
    needSeq_bind.2 ⟨⟨pl, rfl⟩, bind_ok.2 ⟨_, (phaseSteps_ok hl hf).2 ⟨x.phases, hxs, rfl⟩, bind_ok.2 ⟨_,
    buildNextPhases_of hn ?_, hr⟩⟩⟩⟩⟩⟩⟩)⟩⟩⟩
  intro n hnn y hy
  simp only [List.nil_append]
  rw [phasesFrom_ids]
  exact ⟨((hv.next n hnn).1 y.1).1 (List.mem_map.2 ⟨y, hy, rfl⟩), (hv.next n hnn).2 y hy⟩

theorem Spec.IsRing.covers {rulebook : Rulebook.Book} {lights : TrafficLights.Book} {c : Conv} {d : Doc}
    {x : RingSays} {r : Ring} (h : SaysRing rulebook lights c d x) (hv : ValidRing x) (hr : IsRing x r) (k : String) :
    ¬ CoversRow r k ∧ (CoversDiscrete r k ↔ k ∈ x.rules.map (·.1)) := by
  have hphase : ∀ {k p}, r.getPhase k = some p → ∃ before q, (∀ y ∈ before ++ [q], y ∈ x.phases) ∧
      IsPhase x.rules before q p := by
    intro k p hp
    obtain ⟨y, hy, rfl⟩ := hr.only k p hp
    obtain ⟨before, after, he⟩ := List.append_of_mem hy
    obtain ⟨p', hp', hi⟩ := hr.phases before y after he
    rw [hp] at hp'
    obtain rfl := Option.some.inj hp'
    exact ⟨before, y, by intro z hz; rw [he]; simp at hz ⊢; tauto, hi⟩
  have hin : ∀ {before : List PhaseSays} {q : PhaseSays}, (∀ y ∈ before ++ [q], y ∈ x.phases) →
      ((∃ v, InEffect x.rules ((before ++ [q]).flatMap (·.named)) k v) ↔ k ∈ x.rules.map (·.1)) := by
    intro before q hm
    have hsub : k ∈ ((before ++ [q]).flatMap (·.named)).map (·.1) → k ∈ x.rules.map (·.1) := by
      intro hk
      obtain ⟨a, ha, rfl⟩ := List.mem_map.1 hk
      obtain ⟨y, hy, ha⟩ := List.mem_flatMap.1 ha
      obtain ⟨l, -, hl⟩ := h.phases
      obtain ⟨d', -, hd⟩ := forall₂_mem_right hl (hm y hy)
      obtain ⟨r, hr⟩ := hd.rule a ha
      exact List.mem_map.2 ⟨_, hr, rfl⟩
    constructor
    · rintro ⟨v, hv | ⟨-, r, hr, -⟩⟩
      · exact hsub (exists_lastOf.1 ⟨v, hv⟩)
      · exact List.mem_map.2 ⟨_, hr, rfl⟩
    · intro hk
      by_cases hn : k ∈ ((before ++ [q]).flatMap (·.named)).map (·.1)
      · obtain ⟨v, hv⟩ := exists_lastOf.2 hn
        exact ⟨v, Or.inl hv⟩
      · obtain ⟨⟨k', r⟩, hr, rfl⟩ := List.mem_map.1 hk
        obtain ⟨v, hv⟩ := hv.rules _ hr
        exact ⟨v, Or.inr ⟨fun a ha he => hn (List.mem_map.2 ⟨a, ha, he⟩), r, hr, hv⟩⟩
  constructor
  · rintro ⟨k', p, s, hp, hs⟩
    obtain ⟨before, q, -, hi⟩ := hphase hp
    rw [hi.row] at hs
    cases hs
  · constructor
    · rintro ⟨k', p, s, hp, hs⟩
      obtain ⟨before, q, hm, hi⟩ := hphase hp
      exact (hin hm).1 ⟨s, (hi.discrete _ _).1 hs⟩
    · intro hk
      obtain ⟨q, qs, hq⟩ := List.exists_cons_of_ne_nil hv.nonempty
      obtain ⟨p, hp, hi⟩ := hr.phases [] q qs hq
      obtain ⟨v, hv⟩ := (hin (before := []) (q := q) (by rw [hq]; simp)).2 hk
      exact ⟨q.id, p, v, hp, (hi.discrete _ _).2 hv⟩

/-! ### The book -/

/-- The rings have different ids and share no rule. -/
def Separate (rings : List Ring) : Prop := rings.Pairwise fun r r' => r.id ≠ r'.id ∧ ¬ Clash r r'

theorem live_rings {rings : List Ring} (h : Separate rings) : live (rings.map Op.add) = rings := by
  induction rings using List.reverseRecOn with
  | nil => rfl
  | append_singleton rings r ih =>
    obtain ⟨h1, -, h2⟩ := List.pairwise_append.1 h
    rw [List.map_append, List.map_singleton, live_snoc, ih h1]
    simp only [apply]
    rw [if_neg]
    rintro ⟨x, hx, he⟩
    exact (h2 x hx r (by simp)).1 he

theorem noClash_rings {rings : List Ring} (h : Separate rings) : NoClash (rings.map Op.add) := by
  intro pre r post he _ x hx hc
  obtain ⟨a, b, rfl, rfl, hb⟩ := List.map_eq_append_iff.1 he
  obtain ⟨r', b', rfl, hr, rfl⟩ := List.map_eq_cons_iff.1 hb
  obtain rfl : r' = r := by injection hr
  obtain ⟨h1, -, h2⟩ := List.pairwise_append.1 h
  rw [live_rings h1] at hx
  exact (h2 x hx r' (by simp)).2 hc

theorem outcome_ok {σ : Type} {o : Outcome σ} {s : σ} : Outcome.get o = .ok s ↔ o.2 = .ok () ∧ s = o.1 := by
  obtain ⟨a, e | u⟩ := o
  · simp [Outcome.get]
  · simp [Outcome.get, eq_comm]

theorem addRings_ok {build : Node → Except Err Ring} (hb : ∀ d r, build (some d) = .ok r → Valid r) {l : List Doc} :
    ∀ {done : List Ring}, Separate done → (∀ r ∈ done, Valid r) → ∀ {b' : Phases.Book},
    (l.map some).foldlM (fun b n => do
      let r ← build n
      Outcome.get (addPhaseRing b r)) (run (done.map Op.add)) = .ok b' ↔
    ∃ rings, List.Forall₂ (fun d r => build (some d) = .ok r) l rings ∧ Separate (done ++ rings) ∧
      b' = run ((done ++ rings).map Op.add) := by
  induction l with
  | nil =>
    intro done hd _ b'
    simp only [List.map_nil, List.foldlM_nil, pure_ok, List.forall₂_nil_left_iff, exists_eq_left, List.append_nil, hd,
      true_and]
    exact eq_comm
  | cons d l ih =>
    intro done hd hv b'
    have hok : ∀ r, Valid r → ((∃ b1, Outcome.get (addPhaseRing (run (done.map Op.add)) r) = .ok b1) ↔ Separate (done ++ [r])) := by
      intro r hr
      have hvr : ValidRings (done.map Op.add) := by
        intro x hx
        obtain ⟨y, hy, h⟩ := List.mem_map.1 hx
        injection h with h
        exact h ▸ hv y hy
      have hinv := inv_run _ (noClash_rings hd) hvr
      rw [live_rings hd] at hinv
      constructor
      · rintro ⟨b1, h1⟩
        refine List.pairwise_append.2 ⟨hd, by simp, ?_⟩
        intro x hx y hy
        rw [List.mem_singleton] at hy
        subst hy
        constructor
        · intro he
          have := (step_rejected hinv (op := .add y) ⟨x, hx, he⟩).1
          simp only [step] at this
          rw [this] at h1
          cases h1
        · intro hc
          have := Props.phaseBook_clash_throws _ (noClash_rings hd) hvr y hr x (by rwa [live_rings hd]) hc
          rw [(outcome_ok.1 h1).1] at this
          cases this
      · intro hs
        obtain ⟨-, -, h2⟩ := List.pairwise_append.1 hs
        obtain ⟨h3, -⟩ := step_add hinv hr (fun x hx => (h2 x hx r (by simp)).1) (fun x hx => (h2 x hx r (by simp)).2)
        exact ⟨(addPhaseRing (run (done.map Op.add)) r).1, outcome_ok.2 ⟨h3, rfl⟩⟩
    have hrun : ∀ r b1, Outcome.get (addPhaseRing (run (done.map Op.add)) r) = .ok b1 →
        b1 = run ((done ++ [r]).map Op.add) := by
      intro r b1 h
      rw [List.map_append, List.map_singleton, run_snoc]
      exact (outcome_ok.1 h).2
    simp only [List.map_cons, List.foldlM_cons, bind_ok]
    constructor
    · rintro ⟨b1, ⟨r, hr, h1⟩, h⟩
      have hs := (hok r (hb _ _ hr)).1 ⟨b1, h1⟩
      obtain rfl := hrun r b1 h1
      obtain ⟨rings, h2, h3, rfl⟩ := (ih hs (by
        intro x hx
        rcases List.mem_append.1 hx with hx | hx
        · exact hv x hx
        · rw [List.mem_singleton.1 hx]; exact hb _ _ hr)).1 h
      exact ⟨r :: rings, .cons hr h2, by simpa using h3, by simp⟩
    · rintro ⟨_, h, hs, rfl⟩
      cases h with
      | @cons _ r _ rings hr h2 =>
        have hs' : Separate ((done ++ [r]) ++ rings) := by simpa using hs
        have hs1 := (List.pairwise_append.1 hs').1
        obtain ⟨b1, h1⟩ := (hok r (hb _ _ hr)).2 hs1
        refine ⟨b1, ⟨r, hr, h1⟩, ?_⟩
        rw [hrun r b1 h1]
        refine (ih hs1 (by
          intro x hx
          rcases List.mem_append.1 hx with hx | hx
          · exact hv x hx
          · rw [List.mem_singleton.1 hx]; exact hb _ _ hr)).2 ⟨rings, h2, hs', by simp⟩

theorem loadRings_ok {build : Node → Except Err Ring} (hb : ∀ d r, build (some d) = .ok r → Valid r) {root : Doc}
    {b : Phases.Book} : loadRings build root = .ok b ↔ ∃ docs rings, HasField root "PhaseRings" (.seq docs) ∧
      List.Forall₂ (fun d r => build (some d) = .ok r) docs rings ∧ Separate rings ∧ b = run (rings.map Op.add) := by
  unfold loadRings
  simp only [needMap_bind, required_bind, needSeq_bind]
  have hempty : Phases.Book.empty = run (([] : List Ring).map Op.add) := rfl
  constructor
  · rintro ⟨-, v, hv, ⟨docs, rfl⟩, h⟩
    rw [nodes_seq, hempty, addRings_ok hb List.Pairwise.nil (by simp)] at h
    obtain ⟨rings, h1, h2, h3⟩ := h
    exact ⟨docs, rings, hv, h1, h2, h3⟩
  · rintro ⟨docs, rings, hv, h1, h2, h3⟩
    refine ⟨hv.isMap, _, hv, ⟨docs, rfl⟩, ?_⟩
    rw [nodes_seq, hempty, addRings_ok hb List.Pairwise.nil (by simp)]
    exact ⟨rings, h1, h2, h3⟩

/-- What a loaded book returns. -/
theorem rings_content {rings : List Ring} (hs : Separate rings) (hv : ∀ r ∈ rings, Valid r) :
    (∀ id r, getPhaseRing (run (rings.map Op.add)) id = some r ↔ r ∈ rings ∧ r.id = id) ∧
    ∀ rule, (∀ r, findPhaseRingRow (run (rings.map Op.add)) rule = .ok (some r) ↔ r ∈ rings ∧ CoversRow r rule) ∧
      (findPhaseRingRow (run (rings.map Op.add)) rule = .ok none ↔ ∀ r ∈ rings, ¬ CoversRow r rule) ∧
      (∀ r, findPhaseRing (run (rings.map Op.add)) rule = .ok (some r) ↔ r ∈ rings ∧ CoversDiscrete r rule) ∧
      (findPhaseRing (run (rings.map Op.add)) rule = .ok none ↔ ∀ r ∈ rings, ¬ CoversDiscrete r rule) := by
  have hvr : ValidRings (rings.map Op.add) := by
    intro x hx
    obtain ⟨y, hy, h⟩ := List.mem_map.1 hx
    injection h with h
    exact h ▸ hv y hy
  refine ⟨fun id r => ?_, fun rule => ?_⟩
  · have := (Props.phaseBook_get_partial (rings.map Op.add) id).1 r
    rwa [live_rings hs] at this
  · have := Props.phaseBook_find_partial _ (noClash_rings hs) hvr rule
    rwa [live_rings hs] at this

/-! ### From the descriptions to the rings -/

/-- The rings clash exactly if their descriptions do. -/
theorem separate_iff {X : Type} {id : X → String} {rows discrete : X → String → Prop} {xs : List X}
    {rings : List Ring} (h : List.Forall₂ (fun x (r : Ring) => r.id = id x ∧ (∀ k, CoversRow r k ↔ rows x k) ∧
      ∀ k, CoversDiscrete r k ↔ discrete x k) xs rings) :
    Separate rings ↔ xs.Pairwise fun x y => id x ≠ id y ∧
      ¬ ((∃ k, rows x k ∧ rows y k) ∨ ∃ k, discrete x k ∧ discrete y k) := by
  unfold Separate
  induction h with
  | nil => simp
  | @cons x r xs rings hx hr ih =>
    rw [List.pairwise_cons, List.pairwise_cons, ih]
    refine and_congr_left fun _ => ?_
    have key : ∀ {y : X} {r' : Ring}, (r'.id = id y ∧ (∀ k, CoversRow r' k ↔ rows y k) ∧
        ∀ k, CoversDiscrete r' k ↔ discrete y k) → ((r.id ≠ r'.id ∧ ¬ Clash r r') ↔
        (id x ≠ id y ∧ ¬ ((∃ k, rows x k ∧ rows y k) ∨ ∃ k, discrete x k ∧ discrete y k))) := by
      rintro y r' ⟨h1, h2, h3⟩
      unfold Clash
      simp only [h1, h2, h3, hx.1, hx.2.1, hx.2.2]
    constructor
    · intro h y hy
      obtain ⟨r', hr', hi⟩ := forall₂_mem_left hr hy
      exact (key hi).1 (h r' hr')
    · intro h r' hr'
      obtain ⟨y, hy, hi⟩ := forall₂_mem_right hr hr'
      exact (key hi).2 (h y hy)

/-- A property of each pair is a property of each pair with more. -/
theorem forall₂_choose {α β γ : Type} {R : α → β → Prop} {S : α → γ → Prop} {T : γ → β → Prop} {l : List α}
    {m : List β} (h : List.Forall₂ R l m) (hx : ∀ a b, R a b → ∃ c, S a c ∧ T c b) :
    ∃ n, List.Forall₂ S l n ∧ List.Forall₂ T n m := by
  induction h with
  | nil => exact ⟨[], .nil, .nil⟩
  | cons h _ ih =>
    obtain ⟨n, h1, h2⟩ := ih
    obtain ⟨c, h3, h4⟩ := hx _ _ h
    exact ⟨c :: n, .cons h3 h1, .cons h4 h2⟩

theorem separateRings_iff {xs : List RingSays} {rings : List Ring}
    (h : List.Forall₂ (fun (x : RingSays) (r : Ring) => IsRing x r ∧
      ∀ k, ¬ CoversRow r k ∧ (CoversDiscrete r k ↔ k ∈ x.rules.map (·.1))) xs rings) :
    Separate rings ↔ SeparateRings xs := by
  rw [separate_iff (X := RingSays) (xs := xs) (id := RingSays.id) (rows := fun _ _ => False)
    (discrete := fun x k => k ∈ x.rules.map (·.1))]
  · simp [SeparateRings]
  · exact h.imp fun x r ⟨h1, h2⟩ => ⟨h1.id, fun k => iff_false_intro (h2 k).1, fun k => (h2 k).2⟩

theorem isRingBook_of {xs : List RingSays} {rings : List Ring}
    (h : List.Forall₂ (fun (x : RingSays) (r : Ring) => IsRing x r ∧
      ∀ k, ¬ CoversRow r k ∧ (CoversDiscrete r k ↔ k ∈ x.rules.map (·.1))) xs rings)
    (hs : Separate rings) (hv : ∀ r ∈ rings, Valid r) : IsRingBook xs (run (rings.map Op.add)) := by
  obtain ⟨h1, h2⟩ := rings_content hs hv
  refine ⟨fun x hx => ?_, fun id r hr => ?_, fun k hk => ?_, fun k => ?_⟩
  · obtain ⟨r, hr, hi, hc⟩ := forall₂_mem_left h hx
    exact ⟨r, (h1 _ _).2 ⟨hr, hi.id⟩, hi, fun k hk => ((h2 k).2.2.1 r).2 ⟨hr, (hc k).2.2 hk⟩⟩
  · obtain ⟨hm, rfl⟩ := (h1 _ _).1 hr
    obtain ⟨x, hx, hi, -⟩ := forall₂_mem_right h hm
    exact ⟨x, hx, hi.id.symm⟩
  · refine (h2 k).2.2.2.2 fun r hr hc => ?_
    obtain ⟨x, hx, -, hi⟩ := forall₂_mem_right h hr
    exact hk x hx ((hi k).2.1 hc)
  · refine (h2 k).2.1.2 fun r hr hc => ?_
    obtain ⟨x, hx, -, hi⟩ := forall₂_mem_right h hr
    exact (hi k).1 hc

theorem buildPhaseRing_valid {rulebook : Rulebook.Book} {lights : TrafficLights.Book} {c : Conv}
    (hl : BuiltLights lights) : ∀ d r, buildPhaseRing rulebook lights c (some d) = .ok r → Valid r := by
  intro d r h
  obtain ⟨x, -, -, -, hv⟩ := buildPhaseRing_says hl h
  exact hv

end Maliput.Loader
