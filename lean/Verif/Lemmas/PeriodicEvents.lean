import Mathlib.Tactic.Linarith
import Mathlib.Tactic.FieldSimp
import Mathlib.Tactic.Ring
import Mathlib.Tactic.Positivity
import Mathlib.Data.Finset.Card
import Mathlib.Data.Finset.Union
import Mathlib.Order.Interval.Finset.Nat
import Verif.Spec.PeriodicEvents
import Verif.Lemmas.Monad

set_option autoImplicit false

namespace Maliput.Periodic
open Spec

theorem earliest_unique {P : ℚ → Prop} {now t t' : ℚ} (h : EarliestAfter P now t) (h' : EarliestAfter P now t') : t = t' :=
  le_antisymm (h.2.2 _ h'.1 h'.2.1) (h'.2.2 _ h.1 h.2.1)

theorem earliest_of_index {a : PeriodicEventData} {now : ℚ} (hp : 0 < a.period) (hn : a.offset ≤ now) {k : ℤ}
    (hlo : now < a.offset + k * a.period) (hhi : a.offset + k * a.period ≤ now + a.period) :
    EarliestAfter (Sample a) now (a.offset + k * a.period) := by
  have hk : 0 ≤ k := by
    by_contra hk
    have : (k : ℚ) ≤ -1 := by exact_mod_cast (by omega : k ≤ -1)
    nlinarith
  obtain ⟨m, rfl⟩ := Int.eq_ofNat_of_zero_le hk
  refine ⟨⟨m, by simp⟩, hlo, ?_⟩
  rintro t' ⟨j, rfl⟩ hj
  have hlt : ((m : ℚ) - 1) < j := by
    by_contra hc
    push Not at hc
    have : (j : ℚ) * a.period ≤ ((m : ℚ) - 1) * a.period := mul_le_mul_of_nonneg_right hc hp.le
    have : (((m : ℤ) : ℚ)) = (m : ℚ) := by simp
    rw [this] at hhi
    nlinarith
  have hle : m ≤ j := by
    have : (m : ℚ) < j + 1 := by linarith
    have : m < j + 1 := by exact_mod_cast this
    omega
  have : (((m : ℤ) : ℚ)) ≤ (j : ℚ) := by exact_mod_cast hle
  have := mul_le_mul_of_nonneg_right this hp.le
  linarith

theorem getNextSampleTime_spec {a : PeriodicEventData} (h : Sound a) (now : ℚ) :
    ∃ t, getNextSampleTime a now = .ok t ∧ EarliestAfter (Sample a) now t := by
  obtain ⟨hp, ho⟩ := h
  simp only [getNextSampleTime, if_pos hp, if_pos ho]
  by_cases hn : now < a.offset
  · rw [if_pos hn]
    refine ⟨_, rfl, ⟨0, by simp⟩, hn, ?_⟩
    rintro t' ⟨k, rfl⟩ -
    have : (0 : ℚ) ≤ (k : ℚ) * a.period := by positivity
    linarith
  · rw [if_neg hn]
    push Not at hn
    have h1 := Int.le_ceil ((now - a.offset) / a.period)
    have h2 := Int.ceil_lt_add_one ((now - a.offset) / a.period)
    rw [div_le_iff₀ hp] at h1
    have h2' : ((⌈(now - a.offset) / a.period⌉ : ℚ) - 1) * a.period < now - a.offset := by
      rw [← lt_div_iff₀ hp]; linarith
    by_cases hle : a.offset + (⌈(now - a.offset) / a.period⌉ : ℚ) * a.period ≤ now
    · simp only [if_pos hle]
      have hlo : now < a.offset + ((⌈(now - a.offset) / a.period⌉ : ℚ) + 1) * a.period := by nlinarith
      have key := earliest_of_index (a := a) hp hn (k := ⌈(now - a.offset) / a.period⌉ + 1)
        (by push_cast; linarith) (by push_cast; linarith)
      push_cast at key
      refine ⟨a.offset + ((⌈(now - a.offset) / a.period⌉ : ℚ) + 1) * a.period, by rw [if_pos hlo], key⟩
    · simp only [if_neg hle]
      push Not at hle
      have key := earliest_of_index (a := a) hp hn (k := ⌈(now - a.offset) / a.period⌉) hle (by linarith)
      exact ⟨_, by rw [if_pos hle], key⟩

theorem getNextSampleTime_unsound {a : PeriodicEventData} (h : ¬ Sound a) (now : ℚ) :
    getNextSampleTime a now = .error .aborts := by
  unfold getNextSampleTime
  by_cases hp : 0 < a.period
  · rw [if_pos hp, if_neg (fun ho => h ⟨hp, ho⟩)]
  · rw [if_neg hp]

/-- What the loop has found among the events `done`. -/
def Found (now : ℚ) (done : List (PeriodicEventData × Event)) : Option ℚ × List Event → Prop
  | (none, es) => done = [] ∧ es = []
  | (some t, es) => EarliestAfter (SomethingAt done) now t ∧
      ∀ k, es.filter (fun e => decide (e.kind = k)) = due done k t

theorem due_append (l l' : List (PeriodicEventData × Event)) (k : Kind) (t : ℚ) : due (l ++ l') k t = due l k t ++ due l' k t := by
  simp [due]

theorem due_eq_nil {l : List (PeriodicEventData × Event)} {k : Kind} {t : ℚ} (h : ¬ SomethingAt l t) : due l k t = [] := by
  simp only [due, List.map_eq_nil_iff, List.filter_eq_nil_iff, decide_eq_true_eq, not_and]
  exact fun p hp _ hs => h ⟨p, hp, hs⟩

open Classical in
theorem due_single (p : PeriodicEventData × Event) (k : Kind) (t : ℚ) :
    due [p] k t = if p.2.kind = k ∧ Sample p.1 t then [p.2] else [] := by
  simp only [due, List.filter_cons, List.filter_nil, decide_eq_true_eq]
  split <;> simp

theorem somethingAt_append {l : List (PeriodicEventData × Event)} {p : PeriodicEventData × Event} {t : ℚ} :
    SomethingAt (l ++ [p]) t ↔ SomethingAt l t ∨ Sample p.1 t := by
  constructor
  · rintro ⟨q, hq, hs⟩
    rcases List.mem_append.1 hq with hq | hq
    · exact Or.inl ⟨q, hq, hs⟩
    · rw [List.mem_singleton] at hq; subst hq; exact Or.inr hs
  · rintro (⟨q, hq, hs⟩ | hs)
    · exact ⟨q, List.mem_append.2 (Or.inl hq), hs⟩
    · exact ⟨p, List.mem_append.2 (Or.inr (by simp)), hs⟩

theorem nextEvents_spec (now : ℚ) : ∀ (l done : List (PeriodicEventData × Event)) (acc : Option ℚ × List Event),
    (∀ p ∈ l, Sound p.1) → Found now done acc →
    ∃ r, nextEvents now l acc = .ok r ∧ Found now (done ++ l) r
  | [], done, acc, _, hf => ⟨acc, rfl, by simpa using hf⟩
  | (a, e) :: rest, done, (minTime, events), hs, hf => by
    obtain ⟨t, ht, hE⟩ := getNextSampleTime_spec (hs (a, e) (by simp)) now
    have hrest : ∀ p ∈ rest, Sound p.1 := fun p hp => hs p (by simp [hp])
    have happ : done ++ (a, e) :: rest = (done ++ [(a, e)]) ++ rest := by simp
    rw [nextEvents, ht, happ]
    simp only [bind, Except.bind]
    cases minTime with
    | none =>
      obtain ⟨rfl, rfl⟩ := hf
      refine nextEvents_spec now rest _ _ hrest ⟨⟨?_, hE.2.1, ?_⟩, ?_⟩
      · exact ⟨(a, e), by simp, hE.1⟩
      · rintro t' ⟨p, hp, hs'⟩ hlt
        simp only [List.nil_append, List.mem_singleton] at hp
        subst hp
        exact hE.2.2 _ hs' hlt
      · intro k
        simp only [List.nil_append, due_single, List.filter_cons, List.filter_nil, decide_eq_true_eq]
        by_cases hk : e.kind = k
        · simp [hk, hE.1]
        · simp [hk]
    | some m =>
      obtain ⟨hm, hev⟩ := hf
      dsimp only
      by_cases h1 : t < m
      · rw [if_pos h1]
        refine nextEvents_spec now rest _ _ hrest ⟨⟨somethingAt_append.2 (Or.inr hE.1), hE.2.1, ?_⟩, ?_⟩
        · intro t' hs' hlt
          rcases somethingAt_append.1 hs' with hs' | hs'
          · exact le_trans h1.le (hm.2.2 _ hs' hlt)
          · exact hE.2.2 _ hs' hlt
        · intro k
          have : ¬ SomethingAt done t := fun h => absurd (hm.2.2 _ h hE.2.1) (not_le.2 h1)
          rw [due_append, due_eq_nil this, due_single]
          simp only [List.nil_append, List.filter_cons, List.filter_nil, decide_eq_true_eq]
          by_cases hk : e.kind = k
          · simp [hk, hE.1]
          · simp [hk]
      · rw [if_neg h1]
        by_cases h2 : t = m
        · subst h2
          rw [if_pos rfl]
          refine nextEvents_spec now rest _ _ hrest ⟨⟨somethingAt_append.2 (Or.inr hE.1), hE.2.1, ?_⟩, ?_⟩
          · intro t' hs' hlt
            rcases somethingAt_append.1 hs' with hs' | hs'
            · exact hm.2.2 _ hs' hlt
            · exact hE.2.2 _ hs' hlt
          · intro k
            rw [due_append, due_single, List.filter_append, hev k]
            simp only [List.filter_cons, List.filter_nil, decide_eq_true_eq]
            by_cases hk : e.kind = k
            · simp [hk, hE.1]
            · simp [hk]
        · rw [if_neg h2]
          have hlt : m < t := lt_of_le_of_ne (not_lt.1 h1) (Ne.symm h2)
          refine nextEvents_spec now rest _ _ hrest ⟨⟨somethingAt_append.2 (Or.inl hm.1), hm.2.1, ?_⟩, ?_⟩
          · intro t' hs' hlt'
            rcases somethingAt_append.1 hs' with hs' | hs'
            · exact hm.2.2 _ hs' hlt'
            · exact le_trans hlt.le (hE.2.2 _ hs' hlt')
          · intro k
            have : ¬ Sample a m := fun h => absurd (hE.2.2 _ h hm.2.1) (not_le.2 hlt)
            rw [due_append, due_single, hev k]
            simp [this]

theorem nextEvents_unsound (now : ℚ) : ∀ (l : List (PeriodicEventData × Event)) (acc : Option ℚ × List Event),
    ¬ (∀ p ∈ l, Sound p.1) → nextEvents now l acc = .error .aborts
  | [], _, h => absurd (by simp) h
  | (a, e) :: rest, (minTime, events), h => by
    by_cases ha : Sound a
    · have hrest : ¬ ∀ p ∈ rest, Sound p.1 := by
        intro hr
        apply h
        intro p hp
        rcases List.mem_cons.1 hp with rfl | hp
        · exact ha
        · exact hr p hp
      obtain ⟨t, ht, -⟩ := getNextSampleTime_spec ha now
      rw [nextEvents, ht]
      simp only [bind, Except.bind]
      cases minTime with
      | none => exact nextEvents_unsound now rest _ hrest
      | some m =>
        dsimp only
        by_cases h1 : t < m
        · rw [if_pos h1]; exact nextEvents_unsound now rest _ hrest
        · rw [if_neg h1]
          by_cases h2 : t = m
          · rw [if_pos h2]; exact nextEvents_unsound now rest _ hrest
          · rw [if_neg h2]; exact nextEvents_unsound now rest _ hrest
    · rw [nextEvents, getNextSampleTime_unsound ha]
      rfl

theorem due_mem {l : List (PeriodicEventData × Event)} {k : Kind} {t : ℚ} {e : Event} (h : e ∈ due l k t) : ∃ a, (a, e) ∈ l := by
  simp only [due, List.mem_map, List.mem_filter] at h
  obtain ⟨⟨a, e'⟩, ⟨hm, -⟩, rfl⟩ := h
  exact ⟨a, hm⟩

theorem addAll_spec : ∀ (es : List Event) (c : Composite), (∀ e ∈ es, e.trigger ≠ .unknown) →
    addAll es c = .ok ⟨c.publish ++ es.filter (fun e => decide (e.kind = .publish)),
      c.discreteUpdate ++ es.filter (fun e => decide (e.kind = .discreteUpdate)),
      c.unrestrictedUpdate ++ es.filter (fun e => decide (e.kind = .unrestrictedUpdate))⟩
  | [], c, _ => by simp [addAll]
  | e :: rest, c, h => by
    have he : e.trigger ≠ .unknown := h e (by simp)
    rw [addAll, addToCompositeAsIs, if_pos he]
    simp only [bind, Except.bind]
    rw [addAll_spec rest _ (fun x hx => h x (by simp [hx]))]
    cases e with
    | mk kind trigger callback => cases kind <;> simp [doAddToComposite]

/-- Every periodic event of a declared system is triggered periodically. -/
theorem declared_periodic {s : System} (h : Declared s) : ∀ p ∈ s.periodic, p.2.trigger = .periodic := by
  induction h with
  | new => intro p hp; simp [System.new] at hp
  | periodic _ hok ih =>
    unfold declarePeriodicEvent at hok
    split at hok
    · cases hok
      intro p hp
      rcases List.mem_append.1 hp with hp | hp
      · exact ih p hp
      · rw [List.mem_singleton] at hp; subst hp; rfl
    · cases hok
  | perStep _ hok ih =>
    unfold declarePerStepEvent at hok
    split at hok
    · obtain ⟨c, -, hc⟩ := bind_ok.mp hok
      cases hc; exact ih
    · cases hok
  | initialization _ hok ih =>
    unfold declareInitializationEvent at hok
    split at hok
    · obtain ⟨c, -, hc⟩ := bind_ok.mp hok
      cases hc; exact ih
    · cases hok

theorem allDue_hasEvents {l : List (PeriodicEventData × Event)} {t : ℚ} (h : SomethingAt l t) : (allDue l t).hasEvents = true := by
  obtain ⟨⟨a, e⟩, hp, hs⟩ := h
  have hmem : e ∈ due l e.kind t := by
    simp only [due, List.mem_map, List.mem_filter, decide_eq_true_eq]
    exact ⟨(a, e), ⟨hp, rfl, hs⟩, rfl⟩
  have hne : due l e.kind t ≠ [] := List.ne_nil_of_mem hmem
  simp only [allDue, Composite.hasEvents, Bool.or_eq_true, Bool.not_eq_true', List.isEmpty_eq_false_iff]
  cases hk : e.kind <;> rw [hk] at hne <;> simp [hne]

theorem calcNextUpdateTime_spec {s : System} (hd : Declared s) (hs : ∀ p ∈ s.periodic, Sound p.1) (hne : s.periodic ≠ [])
    (now : Time) (scratch : Composite) :
    ∃ t, EarliestAfter (SomethingAt s.periodic) now.time t ∧
      calcNextUpdateTime s now scratch = .ok (some t, allDue s.periodic t) := by
  obtain ⟨⟨mt, es⟩, hr, hF⟩ := nextEvents_spec now.time s.periodic [] (none, []) hs ⟨rfl, rfl⟩
  rw [List.nil_append] at hF
  cases mt with
  | none => exact absurd hF.1 hne
  | some t =>
    obtain ⟨hE, hev⟩ := hF
    have htr : ∀ e ∈ es, e.trigger ≠ .unknown := by
      intro e he
      have : e ∈ due s.periodic e.kind t := by rw [← hev]; simp [he]
      obtain ⟨a, ha⟩ := due_mem this
      rw [declared_periodic hd _ ha]; nofun
    have hadd := addAll_spec es .cleared htr
    simp only [hev, Composite.cleared, List.nil_append] at hadd
    refine ⟨t, hE, ?_⟩
    have hdo : doCalcNextUpdateTime s now.time .cleared = .ok (some t, allDue s.periodic t) := by
      unfold doCalcNextUpdateTime
      rw [if_neg (by simpa using hne), hr]
      simp only [bind, Except.bind, Composite.cleared, hadd]
      rfl
    unfold calcNextUpdateTime
    rw [hdo]
    simp only [bind, Except.bind]
    rw [if_neg (by simp [allDue_hasEvents hE.1])]
    cases now.trueTime with
    | none => rfl
    | some tt =>
      dsimp only
      rw [if_neg]
      intro h
      cases h
      exact lt_irrefl _ hE.2.1

/-- A time the run reaches has no more samples before it than it has seen. -/
theorem finitely_many {l : List (PeriodicEventData × Event)} (hs : ∀ p ∈ l, Sound p.1) (T : ℚ) :
    ∃ S : Finset ℚ, ∀ t, SomethingAt l t → t ≤ T → t ∈ S := by
  classical
  refine ⟨l.toFinset.biUnion (fun p => (Finset.range (⌈(T - p.1.offset) / p.1.period⌉.toNat + 1)).image
    (fun k : ℕ => p.1.offset + k * p.1.period)), ?_⟩
  rintro t ⟨p, hp, k, rfl⟩ hT
  rw [Finset.mem_biUnion]
  refine ⟨p, by simpa using hp, Finset.mem_image.2 ⟨k, ?_, rfl⟩⟩
  rw [Finset.mem_range]
  have hk : (k : ℚ) ≤ (T - p.1.offset) / p.1.period := by
    rw [le_div_iff₀ (hs p hp).1]; linarith
  have : (k : ℤ) ≤ ⌈(T - p.1.offset) / p.1.period⌉ := by
    have := le_trans hk (Int.le_ceil _)
    exact_mod_cast this
  omega

theorem comesBefore_iff (a b : PeriodicEventData) :
    comesBefore a b = true ↔ a.period < b.period ∨ a.period = b.period ∧ a.offset < b.offset := by
  unfold comesBefore
  by_cases h : a.period = b.period
  · simp [h]
  · simp [h]

theorem eq_of_not_before {a b : PeriodicEventData} (h : ¬ comesBefore b a = true) (h' : ¬ comesBefore a b = true) : a = b := by
  rw [comesBefore_iff] at h h'
  push Not at h h'
  have hp : a.period = b.period := le_antisymm h.1 h'.1
  have ho : a.offset = b.offset := le_antisymm (h.2 hp.symm) (h'.2 hp)
  cases a; cases b; simp_all

theorem before_trans {a b c : PeriodicEventData} (h : comesBefore a b = true) (h' : comesBefore b c = true) : comesBefore a c = true := by
  rw [comesBefore_iff] at *
  rcases h with h | ⟨h, h2⟩ <;> rcases h' with h' | ⟨h', h2'⟩
  · exact Or.inl (h.trans h')
  · exact Or.inl (h' ▸ h)
  · exact Or.inl (h ▸ h')
  · exact Or.inr ⟨h.trans h', h2.trans h2'⟩

theorem before_irrefl (a : PeriodicEventData) : ¬ comesBefore a a = true := by
  rw [comesBefore_iff]; simp

theorem pushTo_keys {a : PeriodicEventData} {e : Event} {m : List (PeriodicEventData × List Event)} {x : PeriodicEventData} :
    x ∈ (pushTo a e m).map (·.1) → x = a ∨ x ∈ m.map (·.1) := by
  induction m with
  | nil => simp [pushTo]
  | cons p rest ih =>
    obtain ⟨b, es⟩ := p
    rw [pushTo]
    split
    · intro h
      simp only [List.map_cons, List.mem_cons] at h ⊢
      rcases h with rfl | h
      · exact Or.inr (Or.inl rfl)
      · rcases ih h with h | h
        · exact Or.inl h
        · exact Or.inr (Or.inr h)
    · split
      · simp
      · intro h
        simp only [List.map_cons, List.mem_cons] at h ⊢
        exact Or.inr h

theorem pushTo_sorted {a : PeriodicEventData} {e : Event} {m : List (PeriodicEventData × List Event)}
    (h : (m.map (·.1)).Pairwise (fun x y => comesBefore x y = true)) :
    ((pushTo a e m).map (·.1)).Pairwise (fun x y => comesBefore x y = true) := by
  induction m with
  | nil => simp [pushTo]
  | cons p rest ih =>
    obtain ⟨b, es⟩ := p
    rw [List.map_cons, List.pairwise_cons] at h
    rw [pushTo]
    split
    · rename_i hba
      rw [List.map_cons, List.pairwise_cons]
      refine ⟨?_, ih h.2⟩
      intro x hx
      rcases pushTo_keys hx with rfl | hx
      · exact hba
      · exact h.1 x hx
    · split
      · rename_i hab
        rw [List.map_cons, List.pairwise_cons, List.map_cons, List.pairwise_cons]
        refine ⟨?_, h.1, h.2⟩
        intro x hx
        rcases List.mem_cons.1 hx with rfl | hx
        · exact hab
        · exact before_trans hab (h.1 x hx)
      · rw [List.map_cons, List.pairwise_cons]
        exact h

theorem mem_pushTo {a : PeriodicEventData} {e : Event} {m : List (PeriodicEventData × List Event)}
    (h : (m.map (·.1)).Pairwise (fun x y => comesBefore x y = true)) (x : PeriodicEventData) (es : List Event) :
    (x, es) ∈ pushTo a e m ↔
      (x ≠ a ∧ (x, es) ∈ m) ∨ (x = a ∧ ((∃ es', (a, es') ∈ m ∧ es = es' ++ [e]) ∨ a ∉ m.map (·.1) ∧ es = [e])) := by
  induction m with
  | nil =>
    simp only [pushTo, List.mem_singleton, Prod.mk.injEq, List.not_mem_nil, and_false, false_or, List.map_nil, not_false_eq_true,
      true_and]
    constructor
    · rintro ⟨rfl, rfl⟩; exact ⟨rfl, Or.inr rfl⟩
    · rintro ⟨rfl, h⟩
      rcases h with ⟨es', h, -⟩ | h
      · cases h
      · exact ⟨rfl, h⟩
  | cons p rest ih =>
    obtain ⟨b, bs⟩ := p
    rw [List.map_cons, List.pairwise_cons] at h
    rw [pushTo]
    split
    · rename_i hba
      have hne : a ≠ b := by rintro rfl; exact before_irrefl _ hba
      rw [List.mem_cons, ih h.2]
      simp only [List.mem_cons, Prod.mk.injEq, List.map_cons]
      constructor
      · rintro (⟨rfl, rfl⟩ | ⟨h1, h2⟩ | ⟨rfl, h1 | ⟨h1, h2⟩⟩)
        · exact Or.inl ⟨hne.symm, Or.inl ⟨rfl, rfl⟩⟩
        · exact Or.inl ⟨h1, Or.inr h2⟩
        · obtain ⟨es', he, hq⟩ := h1
          exact Or.inr ⟨rfl, Or.inl ⟨es', Or.inr he, hq⟩⟩
        · exact Or.inr ⟨rfl, Or.inr ⟨by rintro (h | h); exacts [hne h, h1 h], h2⟩⟩
      · rintro (⟨h1, ⟨rfl, rfl⟩ | h2⟩ | ⟨rfl, ⟨es', ⟨h1, -⟩ | h1, hq⟩ | ⟨h1, h2⟩⟩)
        · exact Or.inl ⟨rfl, rfl⟩
        · exact Or.inr (Or.inl ⟨h1, h2⟩)
        · exact absurd h1 hne
        · exact Or.inr (Or.inr ⟨rfl, Or.inl ⟨es', h1, hq⟩⟩)
        · exact Or.inr (Or.inr ⟨rfl, Or.inr ⟨fun h => h1 (Or.inr h), h2⟩⟩)
    · rename_i hba
      split
      · rename_i hab
        have hnot : ∀ y ∈ b :: rest.map (·.1), y ≠ a := by
          intro y hy
          rcases List.mem_cons.1 hy with rfl | hy
          · rintro rfl; exact before_irrefl _ hab
          · rintro rfl; exact hba (h.1 _ hy)
        have hnotm : a ∉ b :: rest.map (·.1) := fun hm => hnot a hm rfl
        constructor
        · intro hm
          rcases List.mem_cons.1 hm with hm | hm
          · cases hm; exact Or.inr ⟨rfl, Or.inr ⟨hnotm, rfl⟩⟩
          · exact Or.inl ⟨hnot x (by
              have := List.mem_map_of_mem (f := Prod.fst) hm
              simpa using this), hm⟩
        · rintro (⟨-, hm⟩ | ⟨rfl, ⟨es', hm, -⟩ | ⟨-, rfl⟩⟩)
          · exact List.mem_cons_of_mem _ hm
          · exact absurd (by have := List.mem_map_of_mem (f := Prod.fst) hm; simpa using this) hnotm
          · exact List.mem_cons_self
      · rename_i hab
        have hEq : a = b := eq_of_not_before hba hab
        subst hEq
        have hnotm : ∀ y, (a, y) ∉ rest := fun y hy => before_irrefl a (h.1 a (List.mem_map_of_mem (f := Prod.fst) hy))
        constructor
        · intro hm
          rcases List.mem_cons.1 hm with hm | hm
          · cases hm
            exact Or.inr ⟨rfl, Or.inl ⟨bs, by simp, rfl⟩⟩
          · refine Or.inl ⟨?_, List.mem_cons_of_mem _ hm⟩
            intro hxa
            rw [hxa] at hm
            exact hnotm _ hm
        · rintro (⟨h1, hm⟩ | ⟨rfl, ⟨es', hm, rfl⟩ | ⟨h1, -⟩⟩)
          · rcases List.mem_cons.1 hm with hm | hm
            · cases hm; exact absurd rfl h1
            · exact List.mem_cons_of_mem _ hm
          · rcases List.mem_cons.1 hm with hm | hm
            · cases hm; exact List.mem_cons_self
            · exact absurd hm (hnotm _)
          · exact absurd (by simp) h1

/-- The map of timings: ordered, and what it holds for a timing are the events declared with it, in that order. -/
def Groups (l : List (PeriodicEventData × Event)) (m : List (PeriodicEventData × List Event)) : Prop :=
  (m.map (·.1)).Pairwise (fun x y => comesBefore x y = true) ∧
    ∀ a es, (a, es) ∈ m ↔ es ≠ [] ∧ es = (l.filter (fun p => decide (p.1 = a))).map (·.2)

theorem groups_push {l : List (PeriodicEventData × Event)} {m : List (PeriodicEventData × List Event)} (h : Groups l m)
    (p : PeriodicEventData × Event) : Groups (l ++ [p]) (pushTo p.1 p.2 m) := by
  obtain ⟨hs, hm⟩ := h
  refine ⟨pushTo_sorted hs, ?_⟩
  intro a es
  rw [mem_pushTo hs]
  simp only [List.filter_append, List.map_append, List.filter_cons, List.filter_nil, decide_eq_true_eq]
  by_cases ha : a = p.1
  · subst ha
    simp only [ne_eq, not_true_eq_false, false_and, false_or, true_and, if_true, List.map_cons, List.map_nil]
    constructor
    · rintro (⟨es', he, rfl⟩ | ⟨hn, rfl⟩)
      · refine ⟨by simp, ?_⟩
        rw [← ((hm _ _).1 he).2]
      · refine ⟨by simp, ?_⟩
        have : (l.filter (fun q => decide (q.1 = p.1))).map (·.2) = [] := by
          by_contra hc
          exact hn (List.mem_map_of_mem (f := Prod.fst) ((hm p.1 _).2 ⟨hc, rfl⟩))
        rw [this]; rfl
    · rintro ⟨-, rfl⟩
      by_cases hc : (l.filter (fun q => decide (q.1 = p.1))).map (·.2) = []
      · right
        refine ⟨?_, by rw [hc]; rfl⟩
        intro hmem
        obtain ⟨⟨b, bs⟩, hb, hbe⟩ := List.mem_map.1 hmem
        dsimp only at hbe
        subst hbe
        obtain ⟨h1, h2⟩ := (hm _ _).1 hb
        exact h1 (h2.trans hc)
      · exact Or.inl ⟨_, (hm _ _).2 ⟨hc, rfl⟩, rfl⟩
  · have ha' : ¬ p.1 = a := fun h => ha h.symm
    simp only [ne_eq, ha, not_false_eq_true, true_and, false_and, or_false, hm, ha', if_false, List.map_nil, List.append_nil]

theorem groups_foldl (l done : List (PeriodicEventData × Event)) (m : List (PeriodicEventData × List Event)) (h : Groups done m) :
    Groups (done ++ l) (l.foldl (fun m p => pushTo p.1 p.2 m) m) := by
  induction l generalizing done m with
  | nil => simpa using h
  | cons p rest ih =>
    have := ih (done ++ [p]) _ (groups_push h p)
    simpa using this

theorem getPeriodicEvents_groups (s : System) : Groups s.periodic (getPeriodicEvents s) := by
  have := groups_foldl s.periodic [] [] ⟨by simp, by
    intro a es
    simp only [List.not_mem_nil, List.filter_nil, List.map_nil, false_iff, not_and]
    exact fun h h' => h h'⟩
  simpa [getPeriodicEvents] using this

theorem uniqueLoop_some : ∀ (m : List (PeriodicEventData × List Event)) (b a : PeriodicEventData),
    uniqueLoop m (some b) = some a ↔ a = b ∧ ∀ q ∈ m, ¬ q.2.any Event.isDiscreteUpdate = true
  | [], b, a => by
    simp only [uniqueLoop, Option.some.injEq, List.not_mem_nil, false_imp_iff, implies_true, and_true]
    exact eq_comm
  | (x, es) :: rest, b, a => by
    rw [uniqueLoop]
    by_cases h : es.any Event.isDiscreteUpdate = true
    · rw [if_pos h]
      simp only [reduceCtorEq, false_iff, not_and, not_forall]
      exact fun _ => ⟨(x, es), by simp, fun hc => hc h⟩
    · rw [if_neg h, uniqueLoop_some rest b a]
      simp only [List.mem_cons, forall_eq_or_imp, h, not_false_eq_true, true_and, Bool.false_eq_true]

theorem uniqueLoop_none : ∀ (m : List (PeriodicEventData × List Event)) (a : PeriodicEventData),
    (m.map (·.1)).Pairwise (fun x y => comesBefore x y = true) →
    (uniqueLoop m none = some a ↔
      (∃ es, (a, es) ∈ m ∧ es.any Event.isDiscreteUpdate = true) ∧ ∀ q ∈ m, q.2.any Event.isDiscreteUpdate = true → q.1 = a)
  | [], a, _ => by simp [uniqueLoop]
  | (x, es) :: rest, a, hs => by
    rw [List.map_cons, List.pairwise_cons] at hs
    rw [uniqueLoop]
    by_cases h : es.any Event.isDiscreteUpdate = true
    · rw [if_pos h, uniqueLoop_some]
      constructor
      · rintro ⟨rfl, hr⟩
        refine ⟨⟨es, by simp, h⟩, ?_⟩
        intro q hq hd
        rcases List.mem_cons.1 hq with rfl | hq
        · rfl
        · exact absurd hd (hr q hq)
      · rintro ⟨-, hall⟩
        have hx : x = a := hall _ List.mem_cons_self h
        refine ⟨hx.symm, ?_⟩
        intro q hq hd
        have := hall q (List.mem_cons_of_mem _ hq) hd
        have hb := hs.1 q.1 (List.mem_map_of_mem (f := Prod.fst) hq)
        rw [this, hx] at hb
        exact before_irrefl _ hb
    · rw [if_neg h, uniqueLoop_none rest a hs.2]
      constructor
      · rintro ⟨⟨es', hm, hd⟩, hall⟩
        refine ⟨⟨es', List.mem_cons_of_mem _ hm, hd⟩, ?_⟩
        intro q hq hd'
        rcases List.mem_cons.1 hq with rfl | hq
        · exact absurd hd' h
        · exact hall q hq hd'
      · rintro ⟨⟨es', hm, hd⟩, hall⟩
        refine ⟨⟨es', ?_, hd⟩, fun q hq => hall q (List.mem_cons_of_mem _ hq)⟩
        rcases List.mem_cons.1 hm with hm | hm
        · cases hm; exact absurd hd h
        · exact hm

end Maliput.Periodic
