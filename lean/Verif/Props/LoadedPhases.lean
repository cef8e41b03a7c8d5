import Verif.Lemmas.LoadedPhases
import Verif.Props.PhaseRingLoader
import Verif.Props.RowPhaseRing

set_option autoImplicit false

/-!
C129: from a phase ring document to the states of rules, at any time.  `c` is the conversion of texts to numbers.
-/
namespace Maliput.Props

open Maliput.Rules Maliput.TrafficLights Maliput.Phases Maliput.Phases.Spec Maliput.Loader Maliput.Loader.Spec
  Maliput.Yaml Maliput.Yaml.Spec

/-- C129: load a document of phase rings, take the default provider for the book, and change phases in any way
that keeps to the phases of the rings.  Then at any time a rule that is in a ring is a rule of the rulebook and has
a state, which is one of the values of the rule, and so is the announced next state; a rule that is in no ring has
the state set by hand, if any.  Nothing is thrown. -/
theorem loaded_rules_have_states (rulebook : Rulebook.Book) (lights : TrafficLights.Book) (hl : BuiltLights lights)
    (c : Conv) (root : Doc) (b : Phases.Book) (h : loadPhaseRings rulebook lights c root = .ok b) :
    ∃ p, defaultProvider b = .ok p ∧ ∀ ops, (∀ op ∈ ops, KeepsToRings b op) → ∀ manual k,
      (findPhaseRing b k = .ok none ∧ discreteState b (after p ops) manual k = .ok (manual.get? k)) ∨
      ∃ ring rule res, findPhaseRing b k = .ok (some ring) ∧ Rulebook.getDiscreteValueRule rulebook k = .ok rule ∧
        discreteState b (after p ops) manual k = .ok (some res) ∧ EachState res (· ∈ rule.states) := by
  obtain ⟨docs, xs, -, hx, hv, -, hb⟩ := ring_loader_sound rulebook lights hl c root b h
  have hdef : ∃ p, defaultProvider b = .ok p := by
    obtain ⟨docs, rings, -, h2, -, rfl⟩ := (loadRings_ok (buildPhaseRing_valid hl)).1 h
    refine defaultProvider_ok _ fun r hr => ?_
    simp only [List.mem_map, Op.add.injEq, exists_eq_right] at hr
    obtain ⟨d, -, hd⟩ := forall₂_mem_right h2 hr
    exact buildPhaseRing_valid hl _ _ hd
  obtain ⟨p, hp⟩ := hdef
  have hring : ∀ id ring, getPhaseRing b id = some ring → ∃ x ∈ xs, x.id = id ∧ IsRing x ring := by
    intro id ring hr
    obtain ⟨x, hx, hid⟩ := hb.only id ring hr
    obtain ⟨r, h1, h2, -⟩ := hb.rings x hx
    rw [hid, hr] at h1
    obtain rfl := Option.some.inj h1
    exact ⟨x, hx, hid, h2⟩
  have hget : ∀ (x : RingSays) r, IsRing x r → ∀ k, k ∈ x.phases.map (·.id) → ∃ ph, r.getPhase k = some ph := by
    intro x r hr k hk
    obtain ⟨y, hy, rfl⟩ := List.mem_map.1 hk
    obtain ⟨l1, l2, hl⟩ := List.append_of_mem hy
    obtain ⟨p', h1, -⟩ := hr.phases _ _ _ hl
    exact ⟨p', h1⟩
  have hd : Driven b p := by
    refine driven_default hp ?_ ?_
    · intro id ring hr he
      obtain ⟨x, hx, -, h1⟩ := hring id ring hr
      obtain ⟨y, ys, hy⟩ := List.exists_cons_of_ne_nil (hv x hx).nonempty
      obtain ⟨ph, h2⟩ := hget x ring h1 y.id (by simp [hy])
      have := Map.get?_eq_some.1 h2
      rw [he] at this
      simp at this
    · intro id ring hr k l hk y hy
      obtain ⟨x, hx, -, h1⟩ := hring id ring hr
      rcases (h1.next k l).1 hk with ⟨-, -, rfl⟩ | ⟨n, hn, l1, l2, h2, -⟩
      · simp at hy
      · exact hget x ring h1 _ (((hv x hx).next n hn).2 (k, l) (by rw [h2]; simp) y hy)
  refine ⟨p, hp, fun ops ho manual k => ?_⟩
  by_cases hk : ∃ x ∈ xs, k ∈ x.rules.map (·.1)
  · right
    obtain ⟨x, hxs, hk⟩ := hk
    obtain ⟨ring, h1, h2, h3⟩ := hb.rings x hxs
    obtain ⟨d, -, hsays⟩ := forall₂_mem_right hx hxs
    have hrules : ∀ r, (k, r) ∈ x.rules → Rulebook.getDiscreteValueRule rulebook k = .ok r := by
      intro r hr
      obtain ⟨l, -, ⟨-, h4⟩ | h4⟩ := hsays.rules
      · rw [h4] at hr; simp at hr
      · obtain ⟨e, -, h5⟩ := forall₂_mem_right h4 hr
        exact h5.2.2
    obtain ⟨⟨k', rule⟩, hr, rfl⟩ := List.mem_map.1 hk
    dsimp only at hrules h3 ⊢
    have hrule := hrules rule hr
    have hval : ∀ id ph, ring.getPhase id = some ph → ∃ s, ph.discreteStates.get? k' = some s ∧ s ∈ rule.states := by
      intro id ph hph
      obtain ⟨y, hy, rfl⟩ := h2.only id ph hph
      obtain ⟨l1, l2, hl12⟩ := List.append_of_mem hy
      obtain ⟨ph', h4, h5⟩ := h2.phases _ _ _ hl12
      rw [hph] at h4
      obtain rfl := Option.some.inj h4
      have hex : ∃ s, InEffect x.rules ((l1 ++ [y]).flatMap (·.named)) k' s := by
        by_cases hn : k' ∈ ((l1 ++ [y]).flatMap (·.named)).map (·.1)
        · obtain ⟨s, hs⟩ := exists_lastOf.2 hn
          exact ⟨s, .inl hs⟩
        · obtain ⟨v, hv'⟩ := (hv x hxs).rules _ hr
          refine ⟨v, .inr ⟨fun a ha he => hn (List.mem_map.2 ⟨a, ha, he⟩), rule, hr, hv'⟩⟩
      obtain ⟨s, hs⟩ := hex
      refine ⟨s, (h5.discrete k' s).2 hs, ?_⟩
      have hfirst : ∀ (l : List DiscreteValue) n v, FirstValue l n v → v ∈ l := by
        rintro l n v ⟨l1, l2, rfl, -⟩; simp
      rcases hs with ⟨m1, m2, hm, -⟩ | ⟨-, r, h6, h7⟩
      · have hmem : (k', s) ∈ (l1 ++ [y]).flatMap (·.named) := by rw [hm]; simp
        obtain ⟨z, hz, hzs⟩ := List.mem_flatMap.1 hmem
        have hzx : z ∈ x.phases := by
          rw [hl12]
          rcases List.mem_append.1 hz with hz | hz
          · exact List.mem_append_left _ hz
          · rw [List.mem_singleton.1 hz]; simp
        obtain ⟨l, -, h8⟩ := hsays.phases
        obtain ⟨dz, -, h9⟩ := forall₂_mem_right h8 hzx
        rcases h9.named with ⟨-, h10⟩ | ⟨l', -, h10⟩
        · rw [h10] at hzs; simp at hzs
        · obtain ⟨e, -, -, -, r, value, h11, -, h12⟩ := forall₂_mem_right h10 hzs
          have := hrules r h11
          rw [hrule] at this
          obtain rfl := Except.ok.inj this
          exact hfirst _ _ _ h12
      · have := hrules r h6
        rw [hrule] at this
        obtain rfl := Except.ok.inj this
        rcases h7 with h7 | ⟨-, h7 | ⟨-, h7⟩⟩ <;> exact hfirst _ _ _ h7
    have hfind := h3 k' hk
    obtain ⟨res, cur, ph, s, e1, -, e3, e4, e5, e6⟩ := discreteState_driven (hd.after ho) hfind
      (by rw [h2.id]; exact h1) (fun id ph hph => (hval id ph hph).imp fun _ h => h.1) manual
    refine ⟨ring, rule, res, hfind, hrule, e1, ?_, ?_⟩
    · obtain ⟨s', h4, h5⟩ := hval _ _ e3
      rw [e4] at h4
      rw [e5, Option.some.inj h4]
      exact h5
    · intro n d hn
      rcases e6 with ⟨-, e6⟩ | ⟨n', d', ph', s', -, e7, e8, e9⟩
      · rw [e6] at hn; cases hn
      · obtain ⟨s'', h4, h5⟩ := hval _ _ e7
        rw [e8] at h4
        rw [e9] at hn
        simp only [Option.some.injEq, Prod.mk.injEq] at hn
        rw [← hn.1, Option.some.inj h4]
        exact h5
  · left
    have hf := hb.otherRules k fun x hx hk' => hk ⟨x, hx, hk'⟩
    refine ⟨hf, ?_⟩
    unfold discreteState
    rw [hf]
    rfl

/-- C129: the same for a document of rings of right-of-way rules.  A rule that is in a ring is a rule of the rulebook
and has a state, which is one of its states, and so is the announced next state; and the discrete value rule that
mirrors the rule has at the same time the value that mirrors this state, and announces the value that mirrors the next
state, after the same duration.  A rule that is in no ring has no state. -/
theorem loaded_rows_have_states (rulebook : Rulebook.Book) (lights : TrafficLights.Book) (hl : BuiltLights lights)
    (c : Conv) (root : Doc) (b : Phases.Book) (h : loadRowPhaseRings rulebook lights c root = .ok b) :
    ∃ p, defaultProvider b = .ok p ∧ ∀ ops, (∀ op ∈ ops, KeepsToRings b op) → ∀ manual k,
      (findPhaseRingRow b k = .ok none ∧ rowState b (after p ops) k = .ok none) ∨
      ∃ ring rule res value, findPhaseRingRow b k = .ok (some ring) ∧ Rulebook.getRightOfWay rulebook k = .ok rule ∧
        rowState b (after p ops) k = .ok (some res) ∧ EachState res (fun s => ∃ t, rule.states.get? s = some t) ∧
        discreteState b (after p ops) manual ("Right-Of-Way Rule Type/" ++ k) = .ok (some value) ∧
        IsMirror rulebook k res.state value.state ∧ (res.next = none → value.next = none) ∧
        ∀ n d, res.next = some (n, d) → ∃ v, value.next = some (v, d) ∧ IsMirror rulebook k n v := by
  obtain ⟨docs, xs, -, hx, hv, -, hb⟩ := rowRing_loader_sound rulebook lights hl c root b h
  have hdef : ∃ p, defaultProvider b = .ok p := by
    obtain ⟨docs, rings, -, h2, -, rfl⟩ := (loadRings_ok (buildRowPhaseRing_valid hl)).1 h
    refine defaultProvider_ok _ fun r hr => ?_
    simp only [List.mem_map, Op.add.injEq, exists_eq_right] at hr
    obtain ⟨d, -, hd⟩ := forall₂_mem_right h2 hr
    exact buildRowPhaseRing_valid hl _ _ hd
  obtain ⟨p, hp⟩ := hdef
  have hring : ∀ id ring, getPhaseRing b id = some ring → ∃ x ∈ xs, x.id = id ∧ IsRowRing rulebook x ring := by
    intro id ring hr
    obtain ⟨x, hx, hid⟩ := hb.only id ring hr
    obtain ⟨r, h1, h2, -⟩ := hb.rings x hx
    rw [hid, hr] at h1
    obtain rfl := Option.some.inj h1
    exact ⟨x, hx, hid, h2⟩
  have hget : ∀ (x : RowRingSays) r, IsRowRing rulebook x r → ∀ k, k ∈ x.phases.map (·.id) →
      ∃ ph, r.getPhase k = some ph := by
    intro x r hr k hk
    obtain ⟨y, hy, rfl⟩ := List.mem_map.1 hk
    obtain ⟨p', h1, -⟩ := hr.phases y hy
    exact ⟨p', h1⟩
  have hd : Driven b p := by
    refine driven_default hp ?_ ?_
    · intro id ring hr he
      obtain ⟨x, hx, -, h1⟩ := hring id ring hr
      obtain ⟨y, ys, hy⟩ := List.exists_cons_of_ne_nil (hv x hx).nonempty
      obtain ⟨ph, h2⟩ := hget x ring h1 y.id (by simp [hy])
      have := Map.get?_eq_some.1 h2
      rw [he] at this
      simp at this
    · intro id ring hr k l hk y hy
      obtain ⟨x, hx, -, h1⟩ := hring id ring hr
      rcases (h1.next k l).1 hk with ⟨-, -, rfl⟩ | ⟨n, hn, l1, l2, h2, -⟩
      · simp at hy
      · exact hget x ring h1 _ (((hv x hx).next n hn).2 (k, l) (by rw [h2]; simp) y hy)
  refine ⟨p, hp, fun ops ho manual k => ?_⟩
  by_cases hk : ∃ x ∈ xs, k ∈ x.rules.map (·.1)
  · right
    obtain ⟨x, hxs, hk⟩ := hk
    obtain ⟨ring, h1, h2, h3⟩ := hb.rings x hxs
    obtain ⟨d, -, hsays⟩ := forall₂_mem_right hx hxs
    have hrule : ∀ r, (k, r) ∈ x.rules → Rulebook.getRightOfWay rulebook k = .ok r := by
      intro r hr
      obtain ⟨l, -, h4⟩ := hsays.rules
      obtain ⟨e, -, h5⟩ := forall₂_mem_right h4 hr
      exact h5.2.2
    obtain ⟨⟨k', rule⟩, hr, rfl⟩ := List.mem_map.1 hk
    dsimp only at hrule h3 ⊢
    obtain ⟨hf1, hf2⟩ := h3 k' hk
    have hval : ∀ id ph, ring.getPhase id = some ph → ∃ s v, ph.ruleStates.get? k' = some s ∧
        ph.discreteStates.get? ("Right-Of-Way Rule Type/" ++ k') = some v ∧ IsMirror rulebook k' s v := by
      intro id ph hph
      obtain ⟨y, hy, rfl⟩ := h2.only id ph hph
      obtain ⟨ph', h4, h5⟩ := h2.phases y hy
      rw [hph] at h4
      obtain rfl := Option.some.inj h4
      obtain ⟨s, hs⟩ := (h5.rows k').2 ⟨rule, hr⟩
      obtain ⟨v, hv'⟩ := (h5.keys _).2 ⟨k', rule, hr, rfl⟩
      exact ⟨s, v, hs, hv', h5.discrete k' s v hs hv'⟩
    have hmirror : ∀ s v, IsMirror rulebook k' s v → ∃ t, rule.states.get? s = some t := by
      rintro s v ⟨r, t, -, -, h4, h5, -⟩
      rw [hrule rule hr] at h4
      obtain rfl := Except.ok.inj h4
      exact ⟨t, h5⟩
    have hid : getPhaseRing b ring.id = some ring := by rw [h2.id]; exact h1
    obtain ⟨res, cur, ph, s, e1, e2, e3, e4, e5, e6⟩ := rowState_driven (hd.after ho) hf1 hid
      (fun id ph hph => by obtain ⟨s, v, h4, -⟩ := hval id ph hph; exact ⟨s, h4⟩)
    obtain ⟨val, cur', ph', v, f1, f2, f3, f4, f5, f6⟩ := discreteState_driven (hd.after ho) hf2 hid
      (fun id ph hph => by obtain ⟨s, v, -, h4, -⟩ := hval id ph hph; exact ⟨v, h4⟩) manual
    rw [e2] at f2
    obtain rfl := Option.some.inj f2
    rw [e3] at f3
    obtain rfl := Option.some.inj f3
    have hcur : IsMirror rulebook k' res.state val.state := by
      obtain ⟨s', v', h4, h5, h6⟩ := hval _ _ e3
      rw [e4] at h4
      rw [f4] at h5
      rw [e5, f5, Option.some.inj h4, Option.some.inj h5]
      exact h6
    have hnext : ∀ n d, res.next = some (n, d) → ∃ v, val.next = some (v, d) ∧ IsMirror rulebook k' n v := by
      intro n d hn
      rcases e6 with ⟨-, e6⟩ | ⟨n', d', q, s', e7, e8, e9, e10⟩
      · rw [e6] at hn; cases hn
      · rcases f6 with ⟨f7, -⟩ | ⟨m', d'', q', v', f7, f8, f9, f10⟩
        · rw [e7] at f7; cases f7
        · rw [e7] at f7
          simp only [Option.some.injEq, Prod.mk.injEq] at f7
          obtain ⟨rfl, rfl⟩ := f7
          rw [e8] at f8
          obtain rfl := Option.some.inj f8
          rw [e10] at hn
          simp only [Option.some.injEq, Prod.mk.injEq] at hn
          obtain ⟨rfl, rfl⟩ := hn
          obtain ⟨a, w, h4, h5, h6⟩ := hval _ _ e8
          rw [e9] at h4
          rw [f9] at h5
          rw [← Option.some.inj h4, ← Option.some.inj h5] at h6
          exact ⟨v', f10, h6⟩
    refine ⟨ring, rule, res, val, hf1, hrule rule hr, e1, ⟨hmirror _ _ hcur, fun n d hn => ?_⟩, f1, hcur, ?_, hnext⟩
    · obtain ⟨v, -, h4⟩ := hnext n d hn
      exact hmirror _ _ h4
    · intro hn
      rcases e6 with ⟨e7, -⟩ | ⟨n', d', q, s', -, -, -, e10⟩
      · rcases f6 with ⟨-, f7⟩ | ⟨m', d'', q', v', f7, -⟩
        · exact f7
        · rw [e7] at f7; cases f7
      · rw [hn] at e10; cases e10
  · left
    have hf := hb.otherRows k fun x hx hk' => hk ⟨x, hx, hk'⟩
    refine ⟨hf, ?_⟩
    unfold rowState
    rw [hf]
    rfl

/-- The states of the rules of a loaded ring after calls on the default provider. -/
def statesAfter (rulebook : Rulebook.Book) (root : Doc) (ops : List ProviderOp) (rules : List String) :
    Except Err (List (Option (Result String))) := do
  let b ← loadPhaseRings rulebook oneLight docConv root
  let p ← defaultProvider b
  rules.mapM fun k => do
    let res ← discreteState b (after p ops) .empty k
    return res.map fun r => ⟨r.state.value, r.next.map fun n => (n.1.value, n.2)⟩

/-- The hypotheses are met, and the theorem says what happens: the ring starts in its first phase and announces the
second; a call with a phase of the ring takes it there; calls about unknown rings are refused. -/
example :
    statesAfter twoRules goodRing [] ["p", "q", "other"] =
      .ok [some ⟨"Go", some ("Stop", some 5)⟩, some ⟨"StopThenGo", some ("Go", some 5)⟩, none] ∧
    statesAfter twoRules goodRing [.set "r" "two" (some "one") none, .set "unknown" "x" none none,
      .add "r" "x" none none] ["p", "q"] =
      .ok [some ⟨"Stop", some ("Go", none)⟩, some ⟨"Go", some ("StopThenGo", none)⟩] := by
  decide +kernel

/-- The states of the right-of-way rule "r" and of its mirror. -/
def rowStatesAfter (root : Doc) (ops : List ProviderOp) : Except Err (Option (Result String) × Option (Result String)) := do
  let rulebook ← loadRulebook docLanes docConv (bookDoc "1" "5")
  let b ← loadRowPhaseRings rulebook oneLight docConv root
  let p ← defaultProvider b
  let res ← rowState b (after p ops) "r"
  let value ← discreteState b (after p ops) .empty "Right-Of-Way Rule Type/r"
  return (res, value.map fun r => ⟨r.state.value, r.next.map fun n => (n.1.value, n.2)⟩)

/-- The same for right-of-way rules. -/
example :
    rowStatesAfter rowRingDoc [] = .ok (some ⟨"Go", none⟩, some ⟨"Go", none⟩) ∧
    rowStatesAfter rowRingDoc [.set "ring" "two" (some "one") (some 3)] =
      .ok (some ⟨"Stop", some ("Go", some 3)⟩, some ⟨"Stop", some ("Go", some 3)⟩) := by
  decide +kernel

/-- C129: the provider does not check that a phase is one of the ring; asking for the state of a rule then throws
`std::out_of_range`. -/
theorem loaded_unknown_phase :
    statesAfter twoRules goodRing [.set "r" "three" none none] ["p"] = .error .outOfRange ∧
    statesAfter twoRules goodRing [.set "r" "one" (some "three") none] ["p"] = .error .outOfRange := by
  decide +kernel

end Maliput.Props
