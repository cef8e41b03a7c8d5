import Verif.Lemmas.Phases

set_option autoImplicit false

/-!
C25 (phase rings), C26 (the book of phase rings), C27 (current phases), C29 (rule states that follow
the phases).

C25 is false of the code in two respects, and one offer is undefined behaviour: a next phase need not
be a phase of the ring (`ring_unknown_next`), phases with bulbs are accepted if the first phase has
none (`ring_bulbs_differ`), and a phase without bulbs is dereferenced if the first phase has some
(`ring_undefined`).  C26 is false after an `AddPhaseRing` that was rejected because of a rule of another
ring: the rejected ring stays in the book, and removing it unregisters the rules of the other ring
(`phaseBook_rejected_add_stays`).
-/
namespace Maliput.Props

open Maliput.Phases Maliput.Phases.Spec Maliput.Rules

/-! ### C25 -/

/-- C25: the constructor succeeds exactly for a non-empty list of phases with different ids that all
cover the same rules, and the same bulbs if the first phase mentions bulbs, and next phases given for
exactly these phases. -/
theorem ring_make_iff (id : String) (p0 : Phase) (ps : List Phase) (next : Option (Map String (List NextPhase))) :
    (∃ r, Ring.make id (p0 :: ps) next = .ok r) ↔
      ((p0 :: ps).map (·.id)).Nodup ∧ (∀ p ∈ ps, SameRules p0 p) ∧
      (p0.bulbStates ≠ none → ∀ p ∈ ps, SameBulbs p0 p) ∧
      (∀ n, next = some n → ∀ k, (∃ l, n.get? k = some l) ↔ ∃ p ∈ p0 :: ps, p.id = k) := by
  have hv : ∀ p, verifyPhase p0 p = .ok () ↔ SameRules p0 p ∧ (p0.bulbStates ≠ none → SameBulbs p0 p) := by
    intro p
    rw [verifyPhase_ok]
    apply and_congr
    · exact ⟨fun h => ⟨h.1.symm, h.2.symm⟩, fun h => ⟨h.1.symm, h.2.symm⟩⟩
    · unfold SameBulbs
      cases hb : p0.bulbStates with
      | none => simp
      | some b0 =>
        simp only [Option.some.injEq, forall_eq', ne_eq, reduceCtorEq, not_false_eq_true, forall_const,
          false_and, false_or]
        constructor
        · rintro ⟨c, h1, h2⟩; exact ⟨b0, c, rfl, h1, h2.symm⟩
        · rintro ⟨_, c, rfl, h1, h2⟩; exact ⟨c, h1, h2.symm⟩
  have hself : verifyPhase p0 p0 = .ok () := by
    rw [verifyPhase_ok]
    exact ⟨⟨.refl _, .refl _⟩, fun rb hrb => ⟨rb, hrb, .refl _⟩⟩
  have hnext : ∀ n : Map String (List NextPhase), ((p0 :: ps).map (·.id)).Nodup →
      (((p0 :: ps).length = n.size ∧ ∀ p ∈ p0 :: ps, n.has p.id = true) ↔
        ∀ k, (∃ l, n.get? k = some l) ↔ ∃ p ∈ p0 :: ps, p.id = k) := by
    intro n hnd
    constructor
    · rintro ⟨g1, g2⟩ k
      rw [← Map.mem_keys]
      have hsub : (p0 :: ps).map (·.id) ⊆ n.keys := by
        intro g hg
        obtain ⟨p, hp, rfl⟩ := List.mem_map.1 hg
        exact Map.mem_keys_has.2 (g2 p hp)
      have hperm : ((p0 :: ps).map (·.id)).Perm n.keys := by
        apply (List.subperm_of_subset hnd hsub).perm_of_length_le
        rw [List.length_map, g1, Map.keys, List.length_map, Map.size]
      rw [← hperm.mem_iff, List.mem_map]
    · intro h
      have hperm : ((p0 :: ps).map (·.id)).Perm n.keys := by
        refine (List.perm_ext_iff_of_nodup hnd n.nodup).2 ?_
        intro g
        change _ ↔ g ∈ n.keys
        rw [Map.mem_keys, h, List.mem_map]
      refine ⟨?_, fun p hp => Map.mem_keys_has.1 (hperm.mem_iff.1 (List.mem_map.2 ⟨p, hp, rfl⟩))⟩
      have := hperm.length_eq
      rw [List.length_map] at this
      rw [this, Map.keys, List.length_map, Map.size]
  constructor
  · rintro ⟨r, hr⟩
    obtain ⟨⟨q0, qs, h0, h1⟩, h2, h3, -⟩ := (make_ok _ _ _ _).1 hr
    obtain ⟨rfl, rfl⟩ := List.cons.inj h0
    refine ⟨h2, fun p hp => ((hv p).1 (h1 p (by simp [hp]))).1,
      fun hb p hp => ((hv p).1 (h1 p (by simp [hp]))).2 hb, fun n hn => (hnext n h2).1 (h3 n hn)⟩
  · rintro ⟨h2, h4, h5, h6⟩
    obtain ⟨m, -, hm⟩ := exists_indexPhases h2
    refine ⟨⟨id, m, next.getD ((p0 :: ps).foldl (fun m p => (m.emplace p.id []).1) .empty)⟩,
      (make_ok _ _ _ _).2 ⟨⟨p0, ps, rfl, ?_⟩, h2, fun n hn => (hnext n h2).2 (h6 n hn), rfl, hm, rfl⟩⟩
    intro p hp
    rw [List.mem_cons] at hp
    rcases hp with rfl | hp
    · exact hself
    · exact (hv p).2 ⟨h4 p hp, fun hb => h5 hb p hp⟩

/-- C25: an empty list of phases is rejected. -/
theorem ring_make_empty (id : String) (next : Option (Map String (List NextPhase))) :
    Ring.make id [] next = .error .throws := rfl

/-- C25: a constructed ring has the given id, the given phases under their ids, at least one of them,
all covering the same rules, and reports next phases for exactly these: the given ones, or none.
Missing: that all phases cover the same bulbs, and that next phases are phases of the ring; see
`ring_bulbs_partial`, `ring_next_partial`, `ring_bulbs_differ` and `ring_unknown_next`. -/
theorem ring_wellFormed_partial (id : String) (phases : List Phase) (next : Option (Map String (List NextPhase)))
    (r : Ring) (h : Ring.make id phases next = .ok r) :
    r.id = id ∧ (∃ k p, r.getPhase k = some p) ∧
    (∀ k p, r.getPhase k = some p ↔ p ∈ phases ∧ p.id = k) ∧
    (∀ k p l q, r.getPhase k = some p → r.getPhase l = some q → SameRules p q) ∧
    (∀ k, (∃ p, r.getPhase k = some p) ↔ (∃ l, r.getNextPhases k = .ok l)) ∧
    (∀ k l, r.getNextPhases k = .ok l → (∀ n, next = some n → n.get? k = some l) ∧ (next = none → l = [])) := by
  have hv := valid_ring ⟨id, phases, next, h⟩
  obtain ⟨⟨p0, ps, h0, h1⟩, h2, h3, h4, h5, h6⟩ := (make_ok _ _ _ _).1 h
  obtain ⟨⟨k, p, rest, he⟩, -, hr, hn⟩ := hv
  refine ⟨h4, ⟨k, p, ?_⟩, ?_, hr, hn, ?_⟩
  · unfold Ring.getPhase; rw [Map.get?_eq_some, he]; simp
  · intro k p
    unfold Ring.getPhase
    rw [Map.get?_eq_some, h5]
    simp only [List.mem_map, Prod.mk.injEq]
    constructor
    · rintro ⟨q, hq, rfl, rfl⟩; exact ⟨hq, rfl⟩
    · rintro ⟨hp, rfl⟩; exact ⟨p, hp, rfl, rfl⟩
  · intro k l hl
    unfold Ring.getNextPhases at hl
    rw [Map.at!_ok, h6] at hl
    cases next with
    | none =>
      refine ⟨by simp, fun _ => ?_⟩
      rw [Option.getD_none, noNext_keys] at hl
      split at hl
      · exact (Option.some.inj hl).symm
      · simp at hl
    | some n => simpa using hl

/-- C25: if the first phase mentions bulbs, or none does, all phases cover the same bulbs. -/
theorem ring_bulbs_partial (id : String) (p0 : Phase) (ps : List Phase) (next : Option (Map String (List NextPhase)))
    (r : Ring) (h : Ring.make id (p0 :: ps) next = .ok r)
    (hb : p0.bulbStates ≠ none ∨ ∀ p ∈ p0 :: ps, p.bulbStates = none) :
    ∀ k p l q, r.getPhase k = some p → r.getPhase l = some q → SameBulbs p q := by
  have hm := (ring_wellFormed_partial _ _ _ _ h).2.2.1
  intro k p l q hp hq
  have hp := ((hm _ _).1 hp).1
  have hq := ((hm _ _).1 hq).1
  rcases hb with hb | hb
  · have := ((ring_make_iff id p0 ps next).1 ⟨r, h⟩).2.2.1 hb
    have hall : ∀ x ∈ p0 :: ps, SameBulbs p0 x := by
      intro x hx
      rw [List.mem_cons] at hx
      rcases hx with rfl | hx
      · obtain ⟨b, hb'⟩ := Option.ne_none_iff_exists'.1 hb
        exact .inr ⟨b, b, hb', hb', .refl _⟩
      · exact this x hx
    rcases hall p hp with ⟨h0, -⟩ | ⟨b, c, h1, h2, h3⟩
    · exact (hb h0).elim
    · rcases hall q hq with ⟨h0, -⟩ | ⟨b', c', h1', h2', h3'⟩
      · exact (hb h0).elim
      · rw [h1] at h1'
        obtain rfl := Option.some.inj h1'
        exact .inr ⟨c, c', h2, h2', h3.symm.trans h3'⟩
  · exact .inl ⟨hb p hp, hb q hq⟩

/-- C25: if the given next phases are among the phases, every reported next phase is one of the ring. -/
theorem ring_next_partial (id : String) (phases : List Phase) (next : Option (Map String (List NextPhase)))
    (r : Ring) (h : Ring.make id phases next = .ok r)
    (hn : ∀ n k l, next = some n → n.get? k = some l → ∀ x ∈ l, ∃ p ∈ phases, p.id = x.id) :
    ∀ k l, r.getNextPhases k = .ok l → ∀ x ∈ l, ∃ p, r.getPhase x.id = some p := by
  obtain ⟨-, -, hm, -, -, h6⟩ := ring_wellFormed_partial _ _ _ _ h
  intro k l hl x hx
  obtain ⟨h1, h2⟩ := h6 k l hl
  cases next with
  | none => rw [h2 rfl] at hx; simp at hx
  | some n =>
    obtain ⟨p, hp, hid⟩ := hn n k l rfl (h1 n rfl) x hx
    exact ⟨p, (hm _ _).2 ⟨hp, hid⟩⟩

def redPhase : Phase := ⟨"red", .ofList [("r", "Stop")], .empty, some (.ofList [(⟨"light", "group", "b"⟩, .on)])⟩
def greenPhase : Phase := ⟨"green", .ofList [("r", "Go")], .empty, some (.ofList [(⟨"light", "group", "b"⟩, .off)])⟩
def nextOf : Map String (List NextPhase) := .ofList [("green", [⟨"red", some 5⟩]), ("red", [⟨"green", none⟩])]

/-- A ring of two phases that follow each other. -/
def lightRing : Ring := ⟨"ring", .ofList [("red", redPhase), ("green", greenPhase)], nextOf⟩

theorem lightRing_make : Ring.make "ring" [redPhase, greenPhase] (some nextOf) = .ok lightRing := by decide +kernel

example : ∀ n k l, some nextOf = some n → n.get? k = some l → ∀ x ∈ l, ∃ p ∈ [redPhase, greenPhase], p.id = x.id := by
  intro n k l hn hl x hx
  obtain rfl := Option.some.inj hn
  rw [Map.get?_eq_some] at hl
  have : nextOf.entries = [("green", [⟨"red", some 5⟩]), ("red", [⟨"green", none⟩])] := by decide +kernel
  rw [this] at hl
  simp only [List.mem_cons, Prod.mk.injEq, List.not_mem_nil, or_false] at hl
  rcases hl with ⟨rfl, rfl⟩ | ⟨rfl, rfl⟩ <;> simp at hx <;> subst hx <;> simp [redPhase, greenPhase]

/-- C25 is false: a ring of one phase whose next phase does not exist is accepted. -/
theorem ring_unknown_next : ∃ r l, Ring.make "ring" [redPhase] (some (.ofList [("red", [⟨"blue", none⟩])])) = .ok r ∧
    r.getNextPhases "red" = .ok l ∧ ∃ x ∈ l, r.getPhase x.id = none :=
  ⟨⟨"ring", .ofList [("red", redPhase)], .ofList [("red", [⟨"blue", none⟩])]⟩, [⟨"blue", none⟩], by decide +kernel,
    by decide +kernel, ⟨"blue", none⟩, by simp, by decide +kernel⟩

/-- C25 is false: a phase without bulbs followed by one with bulbs is accepted. -/
theorem ring_bulbs_differ : ∃ r p q, Ring.make "ring" [{ redPhase with bulbStates := none }, greenPhase] none = .ok r ∧
    r.getPhase "red" = some p ∧ r.getPhase "green" = some q ∧ ¬ SameBulbs p q := by
  refine ⟨⟨"ring", .ofList [("red", { redPhase with bulbStates := none }), ("green", greenPhase)],
    .ofList [("red", []), ("green", [])]⟩, { redPhase with bulbStates := none }, greenPhase, by decide +kernel,
    by decide +kernel, by decide +kernel, ?_⟩
  simp [SameBulbs, greenPhase]

/-- C25: with the phases in the other order the constructor dereferences an empty optional. -/
theorem ring_undefined : Ring.make "ring" [greenPhase, { redPhase with bulbStates := none }] none = .error .ub := by
  decide +kernel

/-! ### C26 -/

/-- C26: `GetPhaseRing` returns the ring added under the id and not removed, and `GetPhaseRings` lists
the ids of these.  (A ring whose addition threw because of its rules counts as added here.) -/
theorem phaseBook_get_partial (ops : List Op) (id : String) :
    (∀ r, getPhaseRing (run ops) id = some r ↔ r ∈ live ops ∧ r.id = id) ∧
    (id ∈ getPhaseRings (run ops) ↔ ∃ r ∈ live ops, r.id = id) ∧ (getPhaseRings (run ops)).Nodup := by
  refine ⟨fun r => rings_run ops id r, ?_, (run ops).rings.nodup⟩
  unfold getPhaseRings
  rw [Map.mem_keys]
  exact exists_congr fun r => by rw [rings_run]

/-- C26: without rejected additions due to rules, `FindPhaseRing` returns the ring of the book that
covers the rule, and nothing if there is none. -/
theorem phaseBook_find_partial (ops : List Op) (hn : NoClash ops) (hv : ValidRings ops) (rule : String) :
    (∀ r, findPhaseRingRow (run ops) rule = .ok (some r) ↔ r ∈ live ops ∧ CoversRow r rule) ∧
    (findPhaseRingRow (run ops) rule = .ok none ↔ ∀ r ∈ live ops, ¬ CoversRow r rule) ∧
    (∀ r, findPhaseRing (run ops) rule = .ok (some r) ↔ r ∈ live ops ∧ CoversDiscrete r rule) ∧
    (findPhaseRing (run ops) rule = .ok none ↔ ∀ r ∈ live ops, ¬ CoversDiscrete r rule) := by
  have h := inv_run ops hn hv
  have key : ∀ (m : Map String String) (C : Ring → Prop),
      (∀ id, m.get? rule = some id ↔ ∃ r ∈ live ops, r.id = id ∧ C r) →
      (∀ r, findIn (run ops) m rule = .ok (some r) ↔ r ∈ live ops ∧ C r) ∧
      (findIn (run ops) m rule = .ok none ↔ ∀ r ∈ live ops, ¬ C r) := by
    intro m C hm
    unfold findIn
    generalize ho : m.get? rule = o at hm
    rcases o with _ | id
    · have hno : ∀ r ∈ live ops, ¬ C r := by
        intro r hr hc
        have := (hm r.id).2 ⟨r, hr, rfl, hc⟩
        cases this
      simp only [Except.ok.injEq, reduceCtorEq, false_iff, true_iff]
      exact ⟨fun r ⟨h1, h2⟩ => hno r h1 h2, hno⟩
    · obtain ⟨r, hr, hid, hc⟩ := (hm id).1 rfl
      have hat : (run ops).rings.at! id = .ok r := Map.at!_ok.2 ((h.rings id r).2 ⟨hr, hid⟩)
      simp only [hat, Except.map, Except.ok.injEq, Option.some.injEq, reduceCtorEq, false_iff]
      refine ⟨fun r' => ⟨?_, ?_⟩, fun hno => hno r hr hc⟩
      · rintro rfl; exact ⟨hr, hc⟩
      · rintro ⟨hr', hc'⟩
        have := (hm r'.id).2 ⟨r', hr', rfl, hc'⟩
        rw [Option.some.injEq] at this
        exact h.unique hr hr' (hid.trans this)
  obtain ⟨h1, h2⟩ := key (run ops).rowRules (CoversRow · rule) (h.row rule)
  obtain ⟨h3, h4⟩ := key (run ops).rules (CoversDiscrete · rule) (h.rules rule)
  exact ⟨h1, h2, h3, h4⟩

/-- C26: a rule is in at most one ring of the book. -/
theorem phaseBook_one_ring_partial (ops : List Op) (hn : NoClash ops) (hv : ValidRings ops) :
    ∀ r ∈ live ops, ∀ r' ∈ live ops, Clash r r' → r = r' :=
  fun _ hr _ hr' hc => (inv_run ops hn hv).noClash hr hr' hc

/-- C26: a call succeeds unless it adds a known id or removes an unknown one; then it throws and
nothing changes. -/
theorem phaseBook_rejects_partial (ops : List Op) (op : Op) (hn : NoClash (ops ++ [op])) (hv : ValidRings (ops ++ [op])) :
    (Rejected (live ops) op → step (run ops) op = (run ops, .error .throws)) ∧
    (¬ Rejected (live ops) op → (step (run ops) op).2 = .ok ()) :=
  (inv_step (inv_run ops (noClash_prefix hn) (validRings_prefix hv)) hn hv).2

/-- C26: adding a ring that shares a rule with a ring of the book throws. -/
theorem phaseBook_clash_throws (ops : List Op) (hn : NoClash ops) (hv : ValidRings ops) (r : Ring) (hr : Valid r)
    (x : Ring) (hx : x ∈ live ops) (hc : Clash x r) : (addPhaseRing (run ops) r).2 = .error .throws := by
  have h := inv_run ops hn hv
  obtain ⟨⟨k0, p0, rest, he⟩, -⟩ := valid_ring hr
  have hcov := covers_first hr he
  have hfail : ∀ (ks : List String) (m : Map String String), (∃ k ∈ ks, m.get? k ≠ none) →
      (addRules m r.id ks).2 = .error .throws := by
    intro ks
    induction ks with
    | nil => rintro m ⟨k, hk, -⟩; simp at hk
    | cons a ks ih =>
      rintro m ⟨k, hk, hm⟩
      unfold addRules
      by_cases ha : m.get? a = none
      · have hnew := Map.emplace_new r.id ha
        simp only [hnew.1, if_true]
        refine ih _ ⟨k, ?_, ?_⟩
        · rcases List.mem_cons.1 hk with rfl | hk
          · exact (hm ha).elim
          · exact hk
        · rw [hnew.2]
          split
          · simp
          · exact hm
      · simp [Map.emplace_old ha]
  unfold addPhaseRing
  by_cases hid : (run ops).rings.get? r.id = none
  · simp only [(Map.emplace_new r hid).1, if_true, he]
    rcases hc with ⟨k, h1, h2⟩ | ⟨k, h1, h2⟩
    · have hm : (run ops).rowRules.get? k ≠ none := by
        rw [(h.row k x.id).2 ⟨x, hx, rfl, h1⟩]; simp
      have := hfail p0.ruleStates.keys _ ⟨k, (hcov k).1.1 h2, hm⟩
      generalize ho : addRules (run ops).rowRules r.id p0.ruleStates.keys = o at this
      obtain ⟨m, o⟩ := o
      simp only at this
      subst this
      rfl
    · have hm : (run ops).rules.get? k ≠ none := by
        rw [(h.rules k x.id).2 ⟨x, hx, rfl, h1⟩]; simp
      have hd := hfail p0.discreteStates.keys _ ⟨k, (hcov k).2.1 h2, hm⟩
      have hrow : ∀ (ks : List String) (m : Map String String),
          (addRules m r.id ks).2 = .ok () ∨ (addRules m r.id ks).2 = .error .throws := by
        intro ks
        induction ks with
        | nil => intro m; exact .inl rfl
        | cons a ks ih =>
          intro m
          unfold addRules
          by_cases ha : m.get? a = none
          · simp only [(Map.emplace_new r.id ha).1, if_true]
            exact ih _
          · simp [Map.emplace_old ha]
      have := hrow p0.ruleStates.keys (run ops).rowRules
      generalize ho : addRules (run ops).rowRules r.id p0.ruleStates.keys = o at this
      obtain ⟨m, o⟩ := o
      simp only at this
      rcases this with rfl | rfl
      · exact hd
      · rfl
  · simp [Map.emplace_old hid]

/-- A second ring with other rules. -/
def otherPhase : Phase := ⟨"only", .empty, .ofList [("d", ⟨⟨0, .empty, .empty⟩, "Go"⟩)], none⟩
def otherRing : Ring := ⟨"other", .ofList [("only", otherPhase)], .ofList [("only", [])]⟩
theorem otherRing_make : Ring.make "other" [otherPhase] none = .ok otherRing := by decide +kernel

def ringOps : List Op := [.add lightRing, .add otherRing, .add lightRing, .remove "unknown", .remove "ring"]

theorem ringOps_ok : NoClash ringOps ∧ ValidRings ringOps := by
  have h1 : live [.add lightRing] = [lightRing] := by decide +kernel
  have hr : ∀ r, Op.add r ∈ ringOps → r = lightRing ∨ r = otherRing := by
    intro r h
    simp only [ringOps, List.mem_cons, Op.add.injEq, reduceCtorEq, List.not_mem_nil, or_false] at h
    tauto
  constructor
  · intro pre r post h hid x hx
    have hadd : Op.add r ∈ ringOps := by rw [h]; simp
    have hx' : Op.add x ∈ ringOps := by rw [h]; simp [Phases.live_added pre x hx]
    have hne := hid x hx
    have hnc : ¬ Clash lightRing otherRing ∧ ¬ Clash otherRing lightRing := by
      have a : ∀ k, ¬ CoversRow otherRing k := by
        intro k hk
        have := (covers_first ⟨_, _, _, otherRing_make⟩ (k0 := "only") (p0 := otherPhase) (rest := []) (by decide +kernel) k).1.1 hk
        simp [otherPhase, Map.keys, Map.empty] at this
      have b : ∀ k, ¬ CoversDiscrete lightRing k := by
        intro k hk
        have := (covers_first ⟨_, _, _, lightRing_make⟩ (k0 := "red") (p0 := redPhase) (rest := [("green", greenPhase)])
          (by decide +kernel) k).2.1 hk
        simp [redPhase, Map.keys, Map.empty] at this
      constructor
      · rintro (⟨k, -, h⟩ | ⟨k, h, -⟩)
        · exact a k h
        · exact b k h
      · rintro (⟨k, h, -⟩ | ⟨k, -, h⟩)
        · exact a k h
        · exact b k h
    rcases hr r hadd with rfl | rfl <;> rcases hr x hx' with rfl | rfl
    · exact (hne rfl).elim
    · exact hnc.2
    · exact hnc.1
    · exact (hne rfl).elim
  · intro r h
    rcases hr r h with rfl | rfl
    · exact ⟨_, _, _, lightRing_make⟩
    · exact ⟨_, _, _, otherRing_make⟩

example : live ringOps = [otherRing] := by decide +kernel

/-- C26 is false after a rejected addition: `AddPhaseRing` of a ring that shares rule "r" with the ring
in the book throws, but the new ring is in the book; after it has been removed (which succeeds), rule
"r" is in no ring although the first ring is still there, and that one cannot be removed. -/
theorem phaseBook_rejected_add_stays : ∃ a b : Ring, Valid a ∧ Valid b ∧
    (step (run [.add a]) (.add b)).2 = .error .throws ∧
    getPhaseRing (run [.add a, .add b]) b.id = some b ∧
    (step (run [.add a, .add b]) (.remove b.id)).2 = .ok () ∧
    getPhaseRing (run [.add a, .add b, .remove b.id]) a.id = some a ∧ CoversRow a "r" ∧
    findPhaseRingRow (run [.add a, .add b, .remove b.id]) "r" = .ok none ∧
    (step (run [.add a, .add b, .remove b.id]) (.remove a.id)).2 = .error .throws := by
  refine ⟨lightRing, { lightRing with id := "second" }, ⟨_, _, _, lightRing_make⟩,
    ⟨"second", [redPhase, greenPhase], some nextOf, by decide +kernel⟩, by decide +kernel, by decide +kernel,
    by decide +kernel, by decide +kernel, ⟨"red", redPhase, "Stop", by decide +kernel, by decide +kernel⟩,
    by decide +kernel, by decide +kernel⟩

/-! ### C27 -/

/-- C27: `GetPhase(id)` returns what the latest accepted call for `id` gave, and nothing exactly if no
call for `id` was accepted. -/
theorem provider_getPhase (ops : List ProviderOp) (id : String) :
    (∀ r, (Provider.run ops).getPhase id = some r ↔
      ∃ op, IsLatest ops op ∧ ringOf op = id ∧ r = asked op) ∧
    ((Provider.run ops).getPhase id = none ↔ ¬ Known ops id) := by
  constructor
  · induction ops using List.reverseRecOn with
    | nil =>
      intro r
      simp only [Provider.run, Provider.getPhase, List.foldl_nil, Map.get?_empty, reduceCtorEq, false_iff]
      rintro ⟨op, ⟨pre, post, h, -⟩, -⟩
      simp at h
    | append_singleton ops op ih =>
      intro r
      obtain ⟨h1, h2⟩ := pstep_run ops op
      have hlast : ∀ o, IsLatest (ops ++ [op]) o ↔
          (o = op ∧ Accepted (Known ops) op) ∨
          (IsLatest ops o ∧ ¬ (ringOf op = ringOf o ∧ Accepted (Known ops) op)) := by
        intro o
        constructor
        · rintro ⟨pre, post, h, ha, hno⟩
          rcases List.eq_nil_or_concat post with rfl | ⟨post', x, rfl⟩
          · obtain ⟨rfl, h'⟩ := List.append_inj' h rfl
            simp only [List.cons.injEq, and_true] at h'
            subst h'
            exact .inl ⟨rfl, ha⟩
          · have h' : ops ++ [op] = (pre ++ o :: post') ++ [x] := by rw [h]; simp
            obtain ⟨rfl, h''⟩ := List.append_inj' h' rfl
            simp only [List.cons.injEq, and_true] at h''
            subst h''
            refine .inr ⟨⟨pre, post', rfl, ha, fun pre' op' post'' hp => ?_⟩, fun ⟨g1, g2⟩ => ?_⟩
            · exact hno pre' op' (post'' ++ [op]) (by rw [hp]; simp)
            · exact hno post' op [] (by simp) g1 g2
        · rintro (⟨rfl, ha⟩ | ⟨⟨pre, post, rfl, ha, hno⟩, hn⟩)
          · exact ⟨ops, [], rfl, ha, fun pre' op' post' h => by simp at h⟩
          · refine ⟨pre, post ++ [op], by simp, ha, fun pre' op' post' h hr => ?_⟩
            rcases List.eq_nil_or_concat post' with rfl | ⟨post'', x, rfl⟩
            · obtain ⟨rfl, h'⟩ := List.append_inj' h rfl
              simp only [List.cons.injEq, and_true] at h'
              subst h'
              exact fun hacc => hn ⟨hr, hacc⟩
            · have h' : post ++ [op] = (pre' ++ op' :: post'') ++ [x] := by rw [h]; simp
              obtain ⟨rfl, -⟩ := List.append_inj' h' rfl
              exact hno pre' op' post'' rfl hr
      by_cases ha : Accepted (Known ops) op
      · obtain ⟨-, h3⟩ := h1 ha
        rw [h3]
        split
        · next hid =>
          subst hid
          simp only [Option.some.injEq, hlast]
          constructor
          · rintro rfl; exact ⟨op, .inl ⟨rfl, ha⟩, rfl, rfl⟩
          · rintro ⟨o, ⟨rfl, -⟩ | ⟨-, hn⟩, hr, rfl⟩
            · rfl
            · exact (hn ⟨hr.symm, ha⟩).elim
        · next hid =>
          rw [ih]
          refine exists_congr fun o => ?_
          rw [hlast]
          constructor
          · rintro ⟨g1, g2, g3⟩
            exact ⟨.inr ⟨g1, fun g => hid (g2.symm.trans g.1.symm)⟩, g2, g3⟩
          · rintro ⟨⟨rfl, -⟩ | ⟨g1, -⟩, g2, g3⟩
            · exact (hid g2.symm).elim
            · exact ⟨g1, g2, g3⟩
      · have : Provider.run (ops ++ [op]) = Provider.run ops := by rw [prun_snoc, h2 ha]
        rw [this, ih]
        refine exists_congr fun o => ?_
        rw [hlast]
        constructor
        · rintro ⟨g1, g2⟩; exact ⟨.inr ⟨g1, fun g => ha g.2⟩, g2⟩
        · rintro ⟨⟨-, g⟩ | ⟨g1, -⟩, g2⟩
          · exact (ha g).elim
          · exact ⟨g1, g2⟩
  · rw [known_iff, none_iff_forall]
    simp

/-- C27: exactly the calls that satisfy the conditions are accepted; a rejected one throws and changes
nothing. -/
theorem provider_accepts (ops : List ProviderOp) (op : ProviderOp) :
    (Accepted (Known ops) op → (Provider.step (Provider.run ops) op).2 = .ok ()) ∧
    (¬ Accepted (Known ops) op → Provider.step (Provider.run ops) op = (Provider.run ops, .error .throws)) :=
  ⟨fun h => ((pstep_run ops op).1 h).1, (pstep_run ops op).2⟩

def phaseOps : List ProviderOp :=
  [.set "ring" "red" none none, .add "ring" "red" none (some 1), .add "ring" "red" none none,
   .add "other" "x" none none, .set "ring" "green" (some "red") (some 5), .set "ring" "red" none (some 3),
   .add "ring" "red" none none]

example : IsLatest phaseOps (.set "ring" "green" (some "red") (some 5)) ∧
    (Provider.run phaseOps).getPhase "ring" = some ⟨"green", some ("red", some 5)⟩ ∧
    (Provider.run phaseOps).getPhase "another" = none := by
  have hk : Known [.set "ring" "red" none none, .add "ring" "red" none (some 1), .add "ring" "red" none none,
      .add "other" "x" none none] "ring" := by
    rw [known_iff]; exact ⟨⟨"red", none⟩, by decide +kernel⟩
  refine ⟨⟨_, [.set "ring" "red" none (some 3), .add "ring" "red" none none], rfl, ⟨.inr (by simp), hk⟩, ?_⟩,
    by decide +kernel, by decide +kernel⟩
  intro pre' op' post' h _
  rcases pre' with _ | ⟨a, _ | ⟨b, c⟩⟩
  · simp only [List.nil_append, List.cons.injEq] at h
    obtain ⟨rfl, -⟩ := h
    rintro ⟨h | h, -⟩ <;> simp at h
  · simp only [List.cons_append, List.nil_append, List.cons.injEq] at h
    obtain ⟨rfl, rfl, -⟩ := h
    rintro ⟨-, h⟩
    exact h (by rw [known_iff]; exact ⟨⟨"green", some ("red", some 5)⟩, by decide +kernel⟩)
  · simp at h

/-- The provider made for a book: every ring is in one of its phases, with the first of that phase's
next phases as next phase, if any. -/
theorem defaultProvider_phases (b : Phases.Book) (p : Provider) (h : defaultProvider b = .ok p) (id : String) :
    (getPhaseRing b id = none → p.getPhase id = none) ∧
    (∀ ring, getPhaseRing b id = some ring → ring.phases.entries ≠ [] → ∃ phase l,
      (∃ ph, ring.getPhase phase = some ph) ∧ ring.getNextPhases phase = .ok l ∧
      p.getPhase id = some ⟨phase, l.head?.map fun n => (n.id, n.durationUntil)⟩) := by
  have hadd : ∀ (p p' : Provider) (id phase : String) (n : Option NextPhase),
      p.addPhaseRing id phase (n.map (·.id)) (n.bind (·.durationUntil)) = (p', .ok ()) →
      ∀ k, p'.getPhase k = if k = id then some ⟨phase, n.map fun n => (n.id, n.durationUntil)⟩ else p.getPhase k := by
    intro p p' id phase n h k
    have hd : ((n.bind (·.durationUntil)).isSome && !(n.map (·.id)).isSome) = false := by cases n <;> simp
    unfold Provider.addPhaseRing at h
    rw [hd] at h
    simp only [Bool.false_eq_true, if_false, Prod.mk.injEq] at h
    obtain ⟨rfl, h2⟩ := h
    have hnew : Map.get? p id = none := by
      rw [← Map.emplace_flag (v := (⟨phase, computeNext (n.map (·.id)) (n.bind (·.durationUntil))⟩ : Result String))]
      by_contra hc
      rw [if_neg hc] at h2
      cases h2
    have := (Map.emplace_new (⟨phase, computeNext (n.map (·.id)) (n.bind (·.durationUntil))⟩ : Result String) hnew).2 k
    unfold Provider.getPhase
    rw [this]
    cases n <;> rfl
  have hone : ∀ (p p' : Provider) (x : String), populateOne b p x = .ok p' →
      (∀ k, k ≠ x → p'.getPhase k = p.getPhase k) ∧
      ∃ ring, getPhaseRing b x = some ring ∧ (ring.phases.entries ≠ [] → ∃ phase l,
        (∃ ph, ring.getPhase phase = some ph) ∧ ring.getNextPhases phase = .ok l ∧
        p'.getPhase x = some ⟨phase, l.head?.map fun n => (n.id, n.durationUntil)⟩) := by
    intro p p' x hx
    unfold populateOne at hx
    generalize hr : getPhaseRing b x = o at hx
    rcases o with _ | ring
    · cases hx
    · simp only at hx
      generalize he : ring.phases.entries = es at hx
      rcases es with _ | ⟨⟨k0, p0⟩, rest⟩
      · simp only [Except.ok.injEq] at hx
        subst hx
        exact ⟨fun _ _ => rfl, ring, rfl, fun h => (h he).elim⟩
      · simp only [bind_ok] at hx
        obtain ⟨l, hl, hx⟩ := hx
        generalize ha : p.addPhaseRing x k0 (l.head?.map (·.id)) (l.head?.bind (·.durationUntil)) = oa at hx
        obtain ⟨p'', e | ⟨⟨⟩⟩⟩ := oa
        · cases hx
        · simp only [Except.ok.injEq] at hx
          subst hx
          have := hadd _ _ _ _ _ ha
          refine ⟨fun k hk => by rw [this, if_neg hk], ring, rfl, fun _ => ⟨k0, l, ⟨p0, ?_⟩, hl, ?_⟩⟩
          · unfold Ring.getPhase; rw [Map.get?_eq_some, he]; simp
          · rw [this, if_pos rfl]
  have hfold : ∀ (ids : List String) (p p' : Provider), ids.Nodup → ids.foldlM (populateOne b) p = .ok p' →
      (∀ k, k ∉ ids → p'.getPhase k = p.getPhase k) ∧
      ∀ x ∈ ids, ∃ ring, getPhaseRing b x = some ring ∧ (ring.phases.entries ≠ [] → ∃ phase l,
        (∃ ph, ring.getPhase phase = some ph) ∧ ring.getNextPhases phase = .ok l ∧
        p'.getPhase x = some ⟨phase, l.head?.map fun n => (n.id, n.durationUntil)⟩) := by
    intro ids
    induction ids with
    | nil =>
      intro p p' _ h
      simp only [List.foldlM_nil, pure_ok] at h
      subst h
      simp
    | cons x ids ih =>
      intro p p' hn h
      simp only [List.foldlM_cons, bind_ok] at h
      obtain ⟨p1, h1, h2⟩ := h
      rw [List.nodup_cons] at hn
      obtain ⟨a1, a2⟩ := hone _ _ _ h1
      obtain ⟨b1, b2⟩ := ih _ _ hn.2 h2
      constructor
      · intro k hk
        simp only [List.mem_cons, not_or] at hk
        rw [b1 k hk.2, a1 k hk.1]
      · intro y hy
        rcases List.mem_cons.1 hy with rfl | hy
        · rw [b1 _ hn.1]; exact a2
        · exact b2 y hy
  obtain ⟨h1, h2⟩ := hfold _ _ _ b.rings.nodup h
  constructor
  · intro hn
    have : id ∉ getPhaseRings b := by
      unfold getPhaseRings
      rw [Map.mem_keys]
      rintro ⟨r, hr⟩
      unfold getPhaseRing at hn
      rw [hn] at hr; cases hr
    rw [h1 id this]; rfl
  · intro ring hr hne
    have : id ∈ getPhaseRings b := Map.mem_keys.2 ⟨ring, hr⟩
    obtain ⟨ring', hr', h3⟩ := h2 id this
    rw [hr] at hr'
    obtain rfl := Option.some.inj hr'
    exact h3 hne

/-- The provider made for any book reachable by additions and removals of valid rings is defined. -/
theorem defaultProvider_ok (ops : List Op) (hv : ValidRings ops) : ∃ p, defaultProvider (run ops) = .ok p := by
  have hfold : ∀ (ids : List String) (p : Provider), ids.Nodup → (∀ x ∈ ids, p.getPhase x = none) →
      (∀ x ∈ ids, ∃ r ∈ live ops, r.id = x) → ∃ p', ids.foldlM (populateOne (run ops)) p = .ok p' := by
    intro ids
    induction ids with
    | nil => intro p _ _ _; exact ⟨p, rfl⟩
    | cons x ids ih =>
      intro p hn hp hl
      rw [List.nodup_cons] at hn
      obtain ⟨r, hr, hid⟩ := hl x (by simp)
      obtain ⟨⟨k0, p0, rest, he⟩, -, -, hnx⟩ := valid_ring (hv r (Phases.live_added ops r hr))
      obtain ⟨l, hl'⟩ := (hnx k0).1 ⟨p0, by unfold Ring.getPhase; rw [Map.get?_eq_some, he]; simp⟩
      have hget : getPhaseRing (run ops) x = some r := (rings_run ops x r).2 ⟨hr, hid⟩
      have hd : ((l.head?.bind (·.durationUntil)).isSome && !(l.head?.map (·.id)).isSome) = false := by
        cases l.head? <;> simp
      have hem := Map.emplace_new (⟨k0, computeNext (l.head?.map (·.id)) (l.head?.bind (·.durationUntil))⟩ : Result String)
        (hp x (by simp))
      have hone : populateOne (run ops) p x =
          .ok (p.emplace x ⟨k0, computeNext (l.head?.map (·.id)) (l.head?.bind (·.durationUntil))⟩).1 := by
        unfold populateOne
        unfold Ring.getNextPhases at hl'
        simp only [hget, he, hl', bind, Except.bind, Provider.addPhaseRing, hd, Bool.false_eq_true, if_false,
          hem.1, if_true]
      rw [List.foldlM_cons, hone]
      refine ih _ hn.2 (fun y hy => ?_) (fun y hy => hl y (by simp [hy]))
      unfold Provider.getPhase
      rw [hem.2, if_neg (by rintro rfl; exact hn.1 hy)]
      exact hp y (by simp [hy])
  refine hfold _ .empty (run ops).rings.nodup (fun _ _ => rfl) (fun x hx => ?_)
  obtain ⟨r, hr⟩ := Map.mem_keys.1 hx
  exact ⟨r, (rings_run ops x r).1 hr⟩

example : ∃ p, defaultProvider (run [.add lightRing, .add otherRing]) = .ok p ∧
    p.getPhase "ring" = some ⟨"red", some ("green", none)⟩ ∧ p.getPhase "other" = some ⟨"only", none⟩ := by
  refine ⟨.ofList [("ring", ⟨"red", some ("green", none)⟩), ("other", ⟨"only", none⟩)], ?_, ?_, ?_⟩ <;> decide +kernel

/-! ### C29 -/

/-- C29: the state of a right-of-way rule.  No state if the rule is in no ring or its ring has no
current phase; otherwise the state that the current phase assigns to the rule, and, if there is a next
phase, the state that one assigns to it and the given duration; `std::out_of_range` exactly if the
current or the next phase is not a phase of the ring. -/
theorem rowState_spec (ops : List Op) (hn : NoClash ops) (hv : ValidRings ops) (p : Provider) (rule : String) :
    ((∀ r ∈ live ops, ¬ CoversRow r rule) → rowState (run ops) p rule = .ok none) ∧
    (∀ r ∈ live ops, CoversRow r rule →
      (p.getPhase r.id = none → rowState (run ops) p rule = .ok none) ∧
      (∀ cur, p.getPhase r.id = some ⟨cur, none⟩ →
        (∀ ph, r.getPhase cur = some ph → ∃ s, ph.ruleStates.get? rule = some s ∧
          rowState (run ops) p rule = .ok (some ⟨s, none⟩)) ∧
        (r.getPhase cur = none → rowState (run ops) p rule = .error .outOfRange)) ∧
      (∀ cur nxt d, p.getPhase r.id = some ⟨cur, some (nxt, d)⟩ →
        (∀ ph ph', r.getPhase cur = some ph → r.getPhase nxt = some ph' →
          ∃ s s', ph.ruleStates.get? rule = some s ∧ ph'.ruleStates.get? rule = some s' ∧
            rowState (run ops) p rule = .ok (some ⟨s, some (s', d)⟩)) ∧
        (r.getPhase cur = none ∨ r.getPhase nxt = none → rowState (run ops) p rule = .error .outOfRange))) := by
  obtain ⟨hf, hf0, -, -⟩ := phaseBook_find_partial ops hn hv rule
  refine ⟨fun h => ?_, fun r hr hc => ?_⟩
  · unfold rowState; rw [hf0.2 h]; rfl
  · have hfind := (hf r).2 ⟨hr, hc⟩
    obtain ⟨-, -, hs, -⟩ := valid_ring (hv r (Phases.live_added ops r hr))
    have hst : ∀ k ph, r.getPhase k = some ph → ∃ s, ph.ruleStates.get? rule = some s := by
      intro k ph hk
      obtain ⟨k', ph', s', hk', hs'⟩ := hc
      exact ((hs _ _ _ _ hk hk').1 rule).2 ⟨s', hs'⟩
    have hat : ∀ k ph, r.getPhase k = some ph → r.phases.at! k = .ok ph := fun k ph h => Map.at!_ok.2 h
    have hno : ∀ k, r.getPhase k = none → r.phases.at! k = .error .outOfRange := fun k h => Map.at!_error.2 ⟨rfl, h⟩
    refine ⟨fun h => ?_, fun cur h => ⟨fun ph hph => ?_, fun hnone => ?_⟩,
      fun cur nxt d h => ⟨fun ph ph' hph hph' => ?_, fun hnone => ?_⟩⟩
    · unfold rowState; rw [hfind]; simp only [bind, Except.bind, h]; rfl
    · obtain ⟨s, hs⟩ := hst _ _ hph
      refine ⟨s, hs, ?_⟩
      unfold rowState
      rw [hfind]
      simp only [bind, Except.bind, h, hat _ _ hph, Map.at!_ok.2 hs]; rfl
    · unfold rowState
      rw [hfind]
      simp only [bind, Except.bind, h, hno _ hnone]
    · obtain ⟨s, hs⟩ := hst _ _ hph
      obtain ⟨s', hs'⟩ := hst _ _ hph'
      refine ⟨s, s', hs, hs', ?_⟩
      unfold rowState
      rw [hfind]
      simp only [bind, Except.bind, h, hat _ _ hph, Map.at!_ok.2 hs, hat _ _ hph', Map.at!_ok.2 hs']; rfl
    · unfold rowState
      rw [hfind]
      simp only [bind, Except.bind, h]
      by_cases hcur : r.getPhase cur = none
      · simp only [hno _ hcur]
      · obtain ⟨ph, hph⟩ := Option.ne_none_iff_exists'.1 hcur
        obtain ⟨s, hs⟩ := hst _ _ hph
        simp only [hat _ _ hph, Map.at!_ok.2 hs, hno _ (hnone.resolve_left hcur)]

/-- C29: the state of a discrete value rule, as `rowState_spec` except that the state set by `SetState`
(`manual`) is used when the rule is in no ring or its ring has no current phase. -/
theorem discreteState_spec (ops : List Op) (hn : NoClash ops) (hv : ValidRings ops) (p : Provider)
    (manual : Map String (Result DiscreteValue)) (rule : String) :
    ((∀ r ∈ live ops, ¬ CoversDiscrete r rule) → discreteState (run ops) p manual rule = .ok (manual.get? rule)) ∧
    (∀ r ∈ live ops, CoversDiscrete r rule →
      (p.getPhase r.id = none → discreteState (run ops) p manual rule = .ok (manual.get? rule)) ∧
      (∀ cur, p.getPhase r.id = some ⟨cur, none⟩ →
        (∀ ph, r.getPhase cur = some ph → ∃ s, ph.discreteStates.get? rule = some s ∧
          discreteState (run ops) p manual rule = .ok (some ⟨s, none⟩)) ∧
        (r.getPhase cur = none → discreteState (run ops) p manual rule = .error .outOfRange)) ∧
      (∀ cur nxt d, p.getPhase r.id = some ⟨cur, some (nxt, d)⟩ →
        (∀ ph ph', r.getPhase cur = some ph → r.getPhase nxt = some ph' →
          ∃ s s', ph.discreteStates.get? rule = some s ∧ ph'.discreteStates.get? rule = some s' ∧
            discreteState (run ops) p manual rule = .ok (some ⟨s, some (s', d)⟩)) ∧
        (r.getPhase cur = none ∨ r.getPhase nxt = none →
          discreteState (run ops) p manual rule = .error .outOfRange))) := by
  obtain ⟨-, -, hf, hf0⟩ := phaseBook_find_partial ops hn hv rule
  refine ⟨fun h => ?_, fun r hr hc => ?_⟩
  · unfold discreteState; rw [hf0.2 h]; rfl
  · have hfind := (hf r).2 ⟨hr, hc⟩
    obtain ⟨-, -, hs, -⟩ := valid_ring (hv r (Phases.live_added ops r hr))
    have hst : ∀ k ph, r.getPhase k = some ph → ∃ s, ph.discreteStates.get? rule = some s := by
      intro k ph hk
      obtain ⟨k', ph', s', hk', hs'⟩ := hc
      exact ((hs _ _ _ _ hk hk').2 rule).2 ⟨s', hs'⟩
    have hat : ∀ k ph, r.getPhase k = some ph → r.phases.at! k = .ok ph := fun k ph h => Map.at!_ok.2 h
    have hno : ∀ k, r.getPhase k = none → r.phases.at! k = .error .outOfRange := fun k h => Map.at!_error.2 ⟨rfl, h⟩
    refine ⟨fun h => ?_, fun cur h => ⟨fun ph hph => ?_, fun hnone => ?_⟩,
      fun cur nxt d h => ⟨fun ph ph' hph hph' => ?_, fun hnone => ?_⟩⟩
    · unfold discreteState; rw [hfind]; simp only [bind, Except.bind, h]; rfl
    · obtain ⟨s, hs⟩ := hst _ _ hph
      refine ⟨s, hs, ?_⟩
      unfold discreteState
      rw [hfind]
      simp only [bind, Except.bind, h, hat _ _ hph, Map.at!_ok.2 hs]; rfl
    · unfold discreteState
      rw [hfind]
      simp only [bind, Except.bind, h, hno _ hnone]
    · obtain ⟨s, hs⟩ := hst _ _ hph
      obtain ⟨s', hs'⟩ := hst _ _ hph'
      refine ⟨s, s', hs, hs', ?_⟩
      unfold discreteState
      rw [hfind]
      simp only [bind, Except.bind, h, hat _ _ hph, Map.at!_ok.2 hs, hat _ _ hph', Map.at!_ok.2 hs']; rfl
    · unfold discreteState
      rw [hfind]
      simp only [bind, Except.bind, h]
      by_cases hcur : r.getPhase cur = none
      · simp only [hno _ hcur]
      · obtain ⟨ph, hph⟩ := Option.ne_none_iff_exists'.1 hcur
        obtain ⟨s, hs⟩ := hst _ _ hph
        simp only [hat _ _ hph, Map.at!_ok.2 hs, hno _ (hnone.resolve_left hcur)]

/-- C29, for every book and provider, whatever their history: a returned state of a right-of-way rule is
the one the current phase of its ring assigns to it, and the next state and duration come from the next
phase; nothing is returned exactly if the rule is in no ring or its ring has no current phase. -/
theorem rowState_sound (b : Phases.Book) (p : Provider) (rule : String) :
    (∀ res, rowState b p rule = .ok (some res) → ∃ ring cur ph, findPhaseRingRow b rule = .ok (some ring) ∧
      p.getPhase ring.id = some cur ∧ ring.getPhase cur.state = some ph ∧ ph.ruleStates.get? rule = some res.state ∧
      (cur.next = none → res.next = none) ∧
      (∀ n d, cur.next = some (n, d) → ∃ ph' s', ring.getPhase n = some ph' ∧ ph'.ruleStates.get? rule = some s' ∧
        res.next = some (s', d))) ∧
    (rowState b p rule = .ok none ↔ findPhaseRingRow b rule = .ok none ∨
      ∃ ring, findPhaseRingRow b rule = .ok (some ring) ∧ p.getPhase ring.id = none) := by
  unfold rowState
  generalize findPhaseRingRow b rule = o
  rcases o with e | _ | ring
  · simp [bind, Except.bind]
  · simp [bind, Except.bind, pure, Except.pure]
  · simp only [bind, Except.bind, Except.ok.injEq, Option.some.injEq, reduceCtorEq, false_or]
    generalize hp : p.getPhase ring.id = o
    rcases o with _ | cur
    · simp only [pure, Except.pure, Except.ok.injEq, reduceCtorEq, false_imp_iff, implies_true, true_and, true_iff]
      exact ⟨ring, rfl, hp⟩
    · simp only
      have hno : ¬ ∃ ring', ring = ring' ∧ p.getPhase ring'.id = none := by
        rintro ⟨_, rfl, h⟩; rw [hp] at h; cases h
      rw [iff_false_right hno]
      generalize h1 : ring.phases.at! cur.state = o1
      rcases o1 with e | ph
      · simp
      simp only
      generalize h2 : ph.ruleStates.at! rule = o2
      rcases o2 with e | s
      · simp
      simp only
      rcases hn : cur.next with _ | ⟨n, d⟩
      · simp only [pure, Except.pure, Except.ok.injEq, reduceCtorEq, not_false_eq_true, and_true, Option.some.injEq]
        rintro res rfl
        exact ⟨ring, cur, ph, rfl, hp, Map.at!_ok.1 h1, Map.at!_ok.1 h2, fun _ => rfl, fun n d h => by rw [hn] at h; cases h⟩
      · simp only
        generalize h3 : ring.phases.at! n = o3
        rcases o3 with e | ph'
        · simp
        simp only
        generalize h4 : ph'.ruleStates.at! rule = o4
        rcases o4 with e | s'
        · simp
        simp only [pure, Except.pure, Except.ok.injEq, reduceCtorEq, not_false_eq_true, and_true, Option.some.injEq]
        rintro res rfl
        refine ⟨ring, cur, ph, rfl, hp, Map.at!_ok.1 h1, Map.at!_ok.1 h2, fun h => (by rw [hn] at h; cases h), fun n' d' h => ?_⟩
        rw [hn] at h
        simp only [Option.some.injEq, Prod.mk.injEq] at h
        obtain ⟨rfl, rfl⟩ := h
        exact ⟨ph', s', Map.at!_ok.1 h3, Map.at!_ok.1 h4, rfl⟩

/-- C29 for discrete value rules and every book and provider: as `rowState_sound`, with the state set by
`SetState` when the rule is in no ring or its ring has no current phase. -/
theorem discreteState_sound (b : Phases.Book) (p : Provider) (manual : Map String (Result DiscreteValue)) (rule : String) :
    ((findPhaseRing b rule = .ok none ∨ ∃ ring, findPhaseRing b rule = .ok (some ring) ∧ p.getPhase ring.id = none) →
      discreteState b p manual rule = .ok (manual.get? rule)) ∧
    (∀ ring cur res, findPhaseRing b rule = .ok (some ring) → p.getPhase ring.id = some cur →
      discreteState b p manual rule = .ok res → ∃ ph s, ring.getPhase cur.state = some ph ∧
      ph.discreteStates.get? rule = some s ∧
      (cur.next = none → res = some ⟨s, none⟩) ∧
      (∀ n d, cur.next = some (n, d) → ∃ ph' s', ring.getPhase n = some ph' ∧ ph'.discreteStates.get? rule = some s' ∧
        res = some ⟨s, some (s', d)⟩)) := by
  unfold discreteState
  generalize findPhaseRing b rule = o
  rcases o with e | _ | ring
  · simp
  · simp [bind, Except.bind, pure, Except.pure]
  · simp only [bind, Except.bind, Except.ok.injEq, Option.some.injEq, reduceCtorEq, false_or]
    constructor
    · rintro ⟨_, rfl, h⟩
      simp only [h]; rfl
    · rintro _ cur res rfl hp
      simp only [hp]
      generalize h1 : ring.phases.at! cur.state = o1
      rcases o1 with e | ph
      · simp
      simp only
      generalize h2 : ph.discreteStates.at! rule = o2
      rcases o2 with e | s
      · simp
      simp only
      rcases hn : cur.next with _ | ⟨n, d⟩
      · simp only [pure, Except.pure, Except.ok.injEq]
        rintro rfl
        exact ⟨ph, s, Map.at!_ok.1 h1, Map.at!_ok.1 h2, fun _ => rfl, fun n d h => by cases h⟩
      · simp only
        generalize h3 : ring.phases.at! n = o3
        rcases o3 with e | ph'
        · simp
        simp only
        generalize h4 : ph'.discreteStates.at! rule = o4
        rcases o4 with e | s'
        · simp
        simp only [pure, Except.pure, Except.ok.injEq]
        rintro rfl
        refine ⟨ph, s, Map.at!_ok.1 h1, Map.at!_ok.1 h2, fun h => (by cases h), fun n' d' h => ?_⟩
        simp only [Option.some.injEq, Prod.mk.injEq] at h
        obtain ⟨rfl, rfl⟩ := h
        exact ⟨ph', s', Map.at!_ok.1 h3, Map.at!_ok.1 h4, rfl⟩

/-! The light ring in phase "red" with "green" next, and in an unknown phase. -/
example : rowState (run [.add lightRing]) (Provider.run [.add "ring" "red" (some "green") (some 5)]) "r" =
    .ok (some ⟨"Stop", some ("Go", some 5)⟩) ∧
    rowState (run [.add lightRing]) (Provider.run [.add "ring" "blue" none none]) "r" = .error .outOfRange ∧
    rowState (run [.add lightRing]) .empty "r" = .ok none := by
  refine ⟨?_, ?_, ?_⟩ <;> decide +kernel

example : CoversRow lightRing "r" ∧ CoversDiscrete otherRing "d" :=
  ⟨⟨"red", redPhase, "Stop", by decide +kernel, by decide +kernel⟩,
    ⟨"only", otherPhase, ⟨⟨0, .empty, .empty⟩, "Go"⟩, by decide +kernel, by decide +kernel⟩⟩

end Maliput.Props
