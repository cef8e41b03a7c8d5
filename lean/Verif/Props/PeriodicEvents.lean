import Verif.Lemmas.PeriodicDouble

set_option autoImplicit false

/-!
# C136: periodic events happen at their sample times

A leaf system reports the next time at which something declared as periodic happens, and what happens then.
-/
namespace Maliput.Props
open Maliput.Periodic Maliput.Periodic.Spec

/-- An event every two units of time from 1 on. -/
def everyTwo : PeriodicEventData := ⟨2, 1⟩

/-- A publication. -/
def aPublish (n : Nat) : Event := ⟨.publish, .unknown, n⟩
/-- A discrete update. -/
def anUpdate (n : Nat) : Event := ⟨.discreteUpdate, .unknown, n⟩

/-- A system with three periodic events: one every two units from 1 on, one every three units from 0 on, and an update with the timing
of the first. -/
def clockSystem : System :=
  ⟨[(⟨2, 1⟩, ⟨.publish, .periodic, 1⟩), (⟨3, 0⟩, ⟨.publish, .periodic, 2⟩), (⟨2, 1⟩, ⟨.discreteUpdate, .periodic, 3⟩)],
    .cleared, .cleared⟩

theorem clockSystem_declared : Declared clockSystem :=
  .periodic (period := 2) (offset := 1) (e := anUpdate 3)
    (.periodic (period := 3) (offset := 0) (e := aPublish 2)
      (.periodic (period := 2) (offset := 1) (e := aPublish 1) .new rfl) rfl) rfl

theorem clockSystem_sound : ∀ p ∈ clockSystem.periodic, Sound p.1 := by
  intro p hp
  simp only [clockSystem, List.mem_cons, List.not_mem_nil, or_false] at hp
  rcases hp with rfl | rfl | rfl <;> constructor <;> norm_num

/-- The next sample time of a timing is the earliest of its sample times after the given time; it is found for every timing with a
positive period and an offset that is not negative, and for no other. -/
theorem next_sample_time_iff (a : PeriodicEventData) (now t : ℚ) :
    getNextSampleTime a now = .ok t ↔ Sound a ∧ EarliestAfter (Sample a) now t := by
  by_cases h : Sound a
  · obtain ⟨t', ht', hE⟩ := getNextSampleTime_spec h now
    constructor
    · intro hok
      rw [ht'] at hok
      cases hok
      exact ⟨h, hE⟩
    · rintro ⟨-, hE'⟩
      rw [ht', earliest_unique hE hE']
  · rw [getNextSampleTime_unsound h]
    constructor
    · nofun
    · exact fun h' => absurd h'.1 h

example : getNextSampleTime everyTwo 1 = .ok 3 := by decide +kernel
example : getNextSampleTime everyTwo 0 = .ok 1 := by decide +kernel
example : getNextSampleTime everyTwo (5 / 2) = .ok 3 := by decide +kernel

/-- The time reported is infinite, with no events, exactly if nothing periodic has been declared.  Otherwise it is the earliest time
after the current one at which something declared happens, and the events reported are all of those that happen then, and no other, by
kind and in the order of their declarations. Neither what the collection held nor a perturbation of the time has an influence. -/
theorem next_update_time_iff {s : System} (hd : Declared s) (now : Time) (scratch : Composite) (r : Option ℚ × Composite) :
    calcNextUpdateTime s now scratch = .ok r ↔
      (s.periodic = [] ∧ r = (none, ⟨[], [], []⟩)) ∨
      (s.periodic ≠ [] ∧ (∀ p ∈ s.periodic, Sound p.1) ∧
        ∃ t, EarliestAfter (SomethingAt s.periodic) now.time t ∧ r = (some t, allDue s.periodic t)) := by
  by_cases hne : s.periodic = []
  · have hc : calcNextUpdateTime s now scratch = .ok (none, .cleared) := by
      unfold calcNextUpdateTime doCalcNextUpdateTime
      simp only [hne, List.isEmpty_nil, if_true, bind, Except.bind, Option.isSome_none, Bool.false_and, Bool.false_eq_true, if_false]
      cases now.trueTime <;> simp
    rw [hc]
    constructor
    · intro h; cases h; exact Or.inl ⟨hne, rfl⟩
    · rintro (⟨-, rfl⟩ | ⟨h, -⟩)
      · rfl
      · exact absurd hne h
  · by_cases hs : ∀ p ∈ s.periodic, Sound p.1
    · obtain ⟨t, hE, hc⟩ := calcNextUpdateTime_spec hd hs hne now scratch
      rw [hc]
      constructor
      · intro h; cases h; exact Or.inr ⟨hne, hs, t, hE, rfl⟩
      · rintro (⟨h, -⟩ | ⟨-, -, t', hE', rfl⟩)
        · exact absurd h hne
        · rw [earliest_unique hE hE']
    · have hc : calcNextUpdateTime s now scratch = .error .aborts := by
        unfold calcNextUpdateTime doCalcNextUpdateTime
        rw [if_neg (by simpa using hne), nextEvents_unsound _ _ _ hs]
        rfl
      rw [hc]
      constructor
      · nofun
      · rintro (⟨h, -⟩ | ⟨-, h, -⟩)
        · exact absurd h hne
        · exact absurd h hs

example : calcNextUpdateTime clockSystem ⟨1, none⟩ .cleared =
    .ok (some 3, ⟨[⟨.publish, .periodic, 1⟩, ⟨.publish, .periodic, 2⟩], [⟨.discreteUpdate, .periodic, 3⟩], []⟩) := by decide +kernel

/-- A declaration accepts every period and every offset, but an assertion of a debug build ends the process as soon as the next update is
asked for if a period is not positive or an offset is negative. -/
theorem unsound_timing_aborts {s : System} {period offset : ℚ} {e : Event} (h : e.trigger = .unknown ∨ e.trigger = .periodic)
    (hb : ¬ (0 < period ∧ 0 ≤ offset)) (now : Time) (scratch : Composite) :
    ∃ s', declarePeriodicEvent s period offset e = .ok s' ∧ calcNextUpdateTime s' now scratch = .error .aborts := by
  refine ⟨_, by unfold declarePeriodicEvent; rw [if_pos h], ?_⟩
  unfold calcNextUpdateTime doCalcNextUpdateTime
  rw [if_neg (by simp), nextEvents_unsound]
  · rfl
  · intro hall
    exact hb (hall _ (List.mem_append.2 (Or.inr (List.mem_singleton.2 rfl))))

example : (declarePeriodicEvent .new 0 1 (aPublish 1)).toOption.isSome = true := by decide +kernel

/-- An event due right now is not reported any more: one declared with the offset 0 is first reported at the end of the first period if
the time starts at 0. -/
theorem due_now_not_reported {s : System} (hd : Declared s) {now : Time} {scratch es : Composite} {t : ℚ}
    (h : calcNextUpdateTime s now scratch = .ok (some t, es)) : t ≠ now.time := by
  rcases (next_update_time_iff hd now scratch _).1 h with ⟨-, h⟩ | ⟨-, -, t', hE, h⟩
  · cases h
  · cases h
    exact ne_of_gt hE.2.1

example : (calcNextUpdateTime ⟨[(⟨3, 0⟩, ⟨.publish, .periodic, 2⟩)], .cleared, .cleared⟩ ⟨0, none⟩ .cleared).toOption.map (·.1) =
    some (some 3) := by decide +kernel

/-- With a time perturbed to a little before the true one, what is due at the true time is reported, and for the true time. -/
theorem perturbed_time_reports {s : System} (hd : Declared s) (hs : ∀ p ∈ s.periodic, Sound p.1) {trueTime time : ℚ}
    (hlt : time < trueTime) (hdue : SomethingAt s.periodic trueTime)
    (hbetween : ∀ t, time < t → t < trueTime → ¬ SomethingAt s.periodic t) (scratch : Composite) :
    calcNextUpdateTime s ⟨time, some trueTime⟩ scratch = .ok (some trueTime, allDue s.periodic trueTime) := by
  refine (next_update_time_iff hd _ scratch _).2 (Or.inr ⟨?_, hs, trueTime, ⟨hdue, hlt, ?_⟩, rfl⟩)
  · obtain ⟨p, hp, -⟩ := hdue
    exact List.ne_nil_of_mem hp
  · intro t' ht' hlt'
    by_contra hc
    exact hbetween t' hlt' (not_le.1 hc) ht'

example : calcNextUpdateTime clockSystem ⟨29 / 10, some 3⟩ .cleared =
    .ok (some 3, ⟨[⟨.publish, .periodic, 1⟩, ⟨.publish, .periodic, 2⟩], [⟨.discreteUpdate, .periodic, 3⟩], []⟩) := by decide +kernel

/-- In a simulation that goes from each update to the next, the times of the updates increase; every one of them has exactly the events
that are due then; and no sample time of a declared event after the start is missed. -/
theorem run_history {s : System} (hd : Declared s) {start now : ℚ} {h : List (ℚ × Composite)} (hr : Run s start h now) :
    (h.map (·.1)).Pairwise (· < ·) ∧
    (∀ u ∈ h, start < u.1 ∧ u.1 ≤ now ∧ u.2 = allDue s.periodic u.1) ∧
    (∀ t, start < t → t ≤ now → (SomethingAt s.periodic t ↔ t ∈ h.map (·.1))) := by
  have key : start ≤ now ∧ (h.map (·.1)).Pairwise (· < ·) ∧
      (∀ u ∈ h, start < u.1 ∧ u.1 ≤ now ∧ u.2 = allDue s.periodic u.1) ∧
      (∀ t, start < t → t ≤ now → (SomethingAt s.periodic t ↔ t ∈ h.map (·.1))) := by
    induction hr with
    | start =>
      exact ⟨le_refl _, by simp, by simp, fun t h1 h2 => absurd h1 (not_lt.2 h2)⟩
    | @next h now t scratch es hr hok ih =>
      obtain ⟨hsn, hpw, hmem, hall⟩ := ih
      rcases (next_update_time_iff hd _ scratch _).1 hok with ⟨-, hn⟩ | ⟨-, -, t', hE, hn⟩
      · cases hn
      · cases hn
        have hlt : now < t := hE.2.1
        refine ⟨le_trans hsn hlt.le, ?_, ?_, ?_⟩
        · rw [List.map_append, List.pairwise_append]
          refine ⟨hpw, by simp, ?_⟩
          intro a ha b hb
          simp only [List.map_cons, List.map_nil, List.mem_singleton] at hb
          subst hb
          obtain ⟨u, hu, rfl⟩ := List.mem_map.1 ha
          exact lt_of_le_of_lt (hmem u hu).2.1 hlt
        · intro u hu
          rcases List.mem_append.1 hu with hu | hu
          · obtain ⟨h1, h2, h3⟩ := hmem u hu
            exact ⟨h1, le_trans h2 hlt.le, h3⟩
          · rw [List.mem_singleton] at hu
            subst hu
            exact ⟨lt_of_le_of_lt hsn hlt, le_refl _, rfl⟩
        · intro x h1 h2
          rw [List.map_append, List.mem_append]
          simp only [List.map_cons, List.map_nil, List.mem_singleton]
          by_cases hx : x ≤ now
          · rw [hall x h1 hx]
            constructor
            · exact Or.inl
            · rintro (hm | rfl)
              · exact hm
              · exact absurd hx (not_le.2 hlt)
          · push Not at hx
            constructor
            · intro hsx
              exact Or.inr (le_antisymm h2 (hE.2.2 _ hsx hx))
            · rintro (hm | rfl)
              · obtain ⟨u, hu, rfl⟩ := List.mem_map.1 hm
                exact absurd (hmem u hu).2.1 (not_le.2 hx)
              · exact hE.1
  exact key.2

/-- The clock runs: three updates from 0 on. -/
theorem clockSystem_runs : Run clockSystem 0
    [(1, ⟨[⟨.publish, .periodic, 1⟩], [⟨.discreteUpdate, .periodic, 3⟩], []⟩),
     (3, ⟨[⟨.publish, .periodic, 1⟩, ⟨.publish, .periodic, 2⟩], [⟨.discreteUpdate, .periodic, 3⟩], []⟩),
     (5, ⟨[⟨.publish, .periodic, 1⟩], [⟨.discreteUpdate, .periodic, 3⟩], []⟩)] 5 :=
  .next (scratch := .cleared)
    (.next (scratch := .cleared)
      (.next (scratch := .cleared) .start (by decide +kernel)) (by decide +kernel)) (by decide +kernel)

/-- Such a simulation never gets stuck and gets past every time: only finitely many updates come before it. -/
theorem run_passes_every_time {s : System} (hd : Declared s) (hs : ∀ p ∈ s.periodic, Sound p.1) (hne : s.periodic ≠ []) (start T : ℚ) :
    ∃ h now, Run s start h now ∧ T < now := by
  obtain ⟨S, hS⟩ := finitely_many hs T
  have step : ∀ n : ℕ, ∃ h now, Run s start h now ∧ h.length = n := by
    intro n
    induction n with
    | zero => exact ⟨[], start, .start, rfl⟩
    | succ n ih =>
      obtain ⟨h, now, hr, hl⟩ := ih
      obtain ⟨t, -, hc⟩ := calcNextUpdateTime_spec hd hs hne ⟨now, none⟩ .cleared
      exact ⟨_, t, .next hr hc, by simp [hl]⟩
  obtain ⟨h, now, hr, hl⟩ := step (S.card + 1)
  refine ⟨h, now, hr, ?_⟩
  by_contra hc
  push Not at hc
  obtain ⟨hpw, hmem, hall⟩ := run_history hd hr
  have hnd : (h.map (·.1)).Nodup := hpw.imp ne_of_lt
  have hsub : (h.map (·.1)).toFinset ⊆ S := by
    intro t ht
    rw [List.mem_toFinset] at ht
    obtain ⟨u, hu, rfl⟩ := List.mem_map.1 ht
    obtain ⟨h1, h2, -⟩ := hmem u hu
    exact hS _ ((hall _ h1 h2).2 (List.mem_map_of_mem hu)) (le_trans h2 hc)
  have := Finset.card_le_card hsub
  rw [List.toFinset_card_of_nodup hnd, List.length_map, hl] at this
  omega

example : ∃ h now, Run clockSystem 0 h now ∧ 1000 < now :=
  run_passes_every_time clockSystem_declared clockSystem_sound (by simp [clockSystem]) 0 1000

/-- What is reported for every step, and for the initialization, are the events declared for that, by kind and in order, with that trigger;
declaring one leaves the other collections as they are. -/
theorem step_and_initialization_events {s : System} {e : Event} (scratch : Composite) :
    (∀ s', declarePerStepEvent s e = .ok s' ↔ (e.trigger = .unknown ∨ e.trigger = .perStep) ∧ s'.periodic = s.periodic ∧
      s'.initialization = s.initialization ∧
      ∀ k, ofKind (getPerStepEvents s' scratch) k =
        ofKind (getPerStepEvents s scratch) k ++ if e.kind = k then [{ e with trigger := .perStep }] else []) ∧
    (∀ s', declareInitializationEvent s e = .ok s' ↔ (e.trigger = .unknown ∨ e.trigger = .initialization) ∧ s'.periodic = s.periodic ∧
      s'.perStep = s.perStep ∧
      ∀ k, ofKind (getInitializationEvents s' scratch) k =
        ofKind (getInitializationEvents s scratch) k ++ if e.kind = k then [{ e with trigger := .initialization }] else []) := by
  have hset : ∀ c other : Composite, c.setFrom other = other := by
    intro c other
    cases other
    simp [Composite.setFrom, Composite.addToEnd, Composite.cleared]
  have hadd : ∀ (t : TriggerType) (c c' : Composite), c' = doAddToComposite e t c ↔
      ∀ k, ofKind c' k = ofKind c k ++ if e.kind = k then [{ e with trigger := t }] else [] := by
    intro t c c'
    constructor
    · rintro rfl k
      cases e with
      | mk kind trigger callback => cases kind <;> cases k <;> simp [doAddToComposite, ofKind]
    · intro h
      have h1 := h .publish
      have h2 := h .discreteUpdate
      have h3 := h .unrestrictedUpdate
      cases e with
      | mk kind trigger callback =>
        cases c'; cases kind <;> simp_all [doAddToComposite, ofKind]
  constructor
  · intro s'
    unfold declarePerStepEvent addToComposite getPerStepEvents
    simp only [hset, ← hadd]
    by_cases h : e.trigger = .unknown ∨ e.trigger = .perStep
    · rw [if_pos h, if_pos h]
      simp only [bind, Except.bind, h, true_and]
      constructor
      · intro hok; cases hok; exact ⟨rfl, rfl, rfl⟩
      · rintro ⟨h1, h2, h3⟩
        clear hadd
        cases s'; simp_all
    · rw [if_neg h]
      constructor
      · nofun
      · exact fun hc => absurd hc.1 h
  · intro s'
    unfold declareInitializationEvent addToComposite getInitializationEvents
    simp only [hset, ← hadd]
    by_cases h : e.trigger = .unknown ∨ e.trigger = .initialization
    · rw [if_pos h, if_pos h]
      simp only [bind, Except.bind, h, true_and]
      constructor
      · intro hok; cases hok; exact ⟨rfl, rfl, rfl⟩
      · rintro ⟨h1, h2, h3⟩
        clear hadd
        cases s'; simp_all
    · rw [if_neg h]
      constructor
      · nofun
      · exact fun hc => absurd hc.1 h

example : (declarePerStepEvent clockSystem (anUpdate 7)).toOption.map (fun s => (getPerStepEvents s .cleared).discreteUpdate) =
    some [⟨.discreteUpdate, .perStep, 7⟩] := by decide +kernel

/-- The periodic events are listed by timing: there is an entry for a timing exactly if an event has been declared with it, it has the
events declared with it, in that order, and the timings are ordered by period, and by offset for the same period. -/
theorem periodic_events_grouped (s : System) :
    (∀ a es, (a, es) ∈ getPeriodicEvents s ↔ es ≠ [] ∧ es = (s.periodic.filter (fun p => decide (p.1 = a))).map (·.2)) ∧
    ((getPeriodicEvents s).map (·.1)).Pairwise (fun x y => x.period < y.period ∨ x.period = y.period ∧ x.offset < y.offset) := by
  obtain ⟨h1, h2⟩ := getPeriodicEvents_groups s
  exact ⟨h2, h1.imp (fun h => (comesBefore_iff _ _).1 h)⟩

example : getPeriodicEvents clockSystem =
    [(⟨2, 1⟩, [⟨.publish, .periodic, 1⟩, ⟨.discreteUpdate, .periodic, 3⟩]), (⟨3, 0⟩, [⟨.publish, .periodic, 2⟩])] := by decide +kernel

/-- The timing of the periodic discrete updates is reported exactly if there are some and all have the same. -/
theorem unique_discrete_timing_iff (s : System) (a : PeriodicEventData) :
    getUniquePeriodicDiscreteUpdateAttribute s = some a ↔ OnlyDiscreteTiming s.periodic a := by
  obtain ⟨h1, h2⟩ := getPeriodicEvents_groups s
  unfold getUniquePeriodicDiscreteUpdateAttribute
  rw [uniqueLoop_none _ _ h1]
  have hany : ∀ b es, (b, es) ∈ getPeriodicEvents s →
      (es.any Event.isDiscreteUpdate = true ↔ ∃ e, (b, e) ∈ s.periodic ∧ e.kind = .discreteUpdate) := by
    intro b es hm
    obtain ⟨-, rfl⟩ := (h2 _ _).1 hm
    simp only [List.any_eq_true, List.mem_map, List.mem_filter, decide_eq_true_eq, Event.isDiscreteUpdate]
    constructor
    · rintro ⟨e, ⟨p, ⟨hp, rfl⟩, rfl⟩, hk⟩
      exact ⟨p.2, hp, hk⟩
    · rintro ⟨e, he, hk⟩
      exact ⟨e, ⟨(b, e), ⟨he, rfl⟩, rfl⟩, hk⟩
  have hgroup : ∀ b e, (b, e) ∈ s.periodic → ∃ es, (b, es) ∈ getPeriodicEvents s := by
    intro b e he
    refine ⟨_, (h2 b _).2 ⟨?_, rfl⟩⟩
    intro hnil
    have : e ∈ (s.periodic.filter (fun p => decide (p.1 = b))).map (·.2) :=
      List.mem_map.2 ⟨(b, e), List.mem_filter.2 ⟨he, by simp⟩, rfl⟩
    rw [hnil] at this
    cases this
  constructor
  · rintro ⟨⟨es, hm, hd⟩, hall⟩
    refine ⟨(hany a es hm).1 hd, ?_⟩
    rintro ⟨b, e⟩ hp hk
    obtain ⟨es', hm'⟩ := hgroup b e hp
    exact hall _ hm' ((hany b es' hm').2 ⟨e, hp, hk⟩)
  · rintro ⟨⟨e, he, hk⟩, hall⟩
    obtain ⟨es, hm⟩ := hgroup a e he
    refine ⟨⟨es, hm, (hany a es hm).2 ⟨e, he, hk⟩⟩, ?_⟩
    rintro ⟨b, es'⟩ hm' hd
    obtain ⟨e', he', hk'⟩ := (hany b es' hm').1 hd
    exact hall _ he' hk'

example : getUniquePeriodicDiscreteUpdateAttribute clockSystem = some ⟨2, 1⟩ := by decide +kernel

/-- A system counts as one of difference equations, with a period, exactly if it has one group of discrete states and no other state, and
all its periodic discrete updates happen at the multiples of that period. -/
theorem difference_equation_iff (s : System) (continuous groups abstract : Nat) (period : ℚ) :
    isDifferenceEquationSystem s continuous groups abstract = some period ↔
      continuous = 0 ∧ abstract = 0 ∧ groups = 1 ∧ OnlyDiscreteTiming s.periodic ⟨period, 0⟩ := by
  unfold isDifferenceEquationSystem
  by_cases h1 : continuous ≠ 0 ∨ abstract ≠ 0
  · rw [if_pos h1]
    constructor
    · nofun
    · rintro ⟨h2, h3, -⟩
      rcases h1 with h1 | h1
      · exact absurd h2 h1
      · exact absurd h3 h1
  · rw [if_neg h1]
    push Not at h1
    by_cases h2 : groups ≠ 1
    · rw [if_pos h2]
      constructor
      · nofun
      · rintro ⟨-, -, h3, -⟩; exact absurd h3 h2
    · rw [if_neg h2]
      push Not at h2
      simp only [h1, h2, true_and]
      rw [← unique_discrete_timing_iff]
      cases hu : getUniquePeriodicDiscreteUpdateAttribute s with
      | none => simp
      | some a =>
        dsimp only
        by_cases h3 : a.offset ≠ 0
        · rw [if_pos h3]
          constructor
          · nofun
          · intro h; cases h; exact absurd rfl h3
        · rw [if_neg h3]
          push Not at h3
          cases a
          simp_all

example : isDifferenceEquationSystem ⟨[(⟨2, 0⟩, ⟨.discreteUpdate, .periodic, 1⟩), (⟨3, 1⟩, ⟨.publish, .periodic, 1⟩)], .cleared, .cleared⟩
    0 1 0 = some 2 := by decide +kernel

/-- In the arithmetic of the machine, the next sample time is the exact one if the times are multiples of a power of two and have no more
than 53 binary digits, as whole numbers have. -/
theorem next_sample_double_exact {j m n e : ℤ} (hm : 0 ≤ m) (hj : 0 ≤ j) (hn : 0 < n) (hjn : j + n < 2 ^ 53)
    (he : -1074 ≤ e) (he' : e ≤ 971) :
    ∃ t, EarliestAfter (Sample ⟨(n : ℚ) * 2 ^ e, (m : ℚ) * 2 ^ e⟩) ((j : ℚ) * 2 ^ e) t ∧
      getNextSampleTimeDouble ((n : ℚ) * 2 ^ e) ((m : ℚ) * 2 ^ e) ((j : ℚ) * 2 ^ e) = .fin t := by
  have hu : (0 : ℚ) < (2 : ℚ) ^ e := zpow_pos (by norm_num) e
  obtain ⟨t, ht, hE⟩ := getNextSampleTime_spec (a := ⟨(n : ℚ) * 2 ^ e, (m : ℚ) * 2 ^ e⟩)
    ⟨mul_pos (by exact_mod_cast hn) hu, mul_nonneg (by exact_mod_cast hm) hu.le⟩ ((j : ℚ) * 2 ^ e)
  exact ⟨t, hE, next_double hm hj hn hjn he he' ht⟩

example : getNextSampleTimeDouble 2 1 1 = .fin 3 := by decide +kernel

/-- With an event every quarter of a unit of time, the time 2^53 is its own next sample time: in a release such a simulation gets stuck. -/
theorem double_next_sample_stuck :
    Sample ⟨1 / 4, 0⟩ (2 ^ 53) ∧ getNextSampleTimeDouble (1 / 4) 0 (2 ^ 53) = .fin (2 ^ 53) := by
  refine ⟨⟨2 ^ 55, by norm_num⟩, by decide +kernel⟩

end Maliput.Props
