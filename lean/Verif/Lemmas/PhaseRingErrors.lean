import Verif.Lemmas.PhaseRingBook

set_option autoImplicit false

/-! How the phase ring loaders fail. -/
namespace Maliput.Loader

open Maliput.Rules Maliput.TrafficLights Maliput.Phases Maliput.Phases.Spec Maliput.Yaml Maliput.Yaml.Spec
open Maliput.Loader.Spec

theorem bind_error {α β : Type} {x : Except Err α} {f : α → Except Err β} {e : Err} :
    (x >>= f) = .error e ↔ x = .error e ∨ ∃ a, x = .ok a ∧ f a = .error e := by
  cases x with
  | error e' => simp [bind, Except.bind]
  | ok a => simp [bind, Except.bind]

theorem foldlM_error {σ ι : Type} {f : σ → ι → Except Err σ} {e : Err} {xs : List ι} : ∀ {s : σ},
    xs.foldlM f s = .error e → ∃ x ∈ xs, ∃ s, f s x = .error e := by
  induction xs with
  | nil => intro s h; cases h
  | cons x xs ih =>
    intro s h
    rw [List.foldlM_cons, bind_error] at h
    rcases h with h | ⟨s', -, h⟩
    · exact ⟨x, by simp, s, h⟩
    · obtain ⟨y, hy, s'', h⟩ := ih h
      exact ⟨y, by simp [hy], s'', h⟩

theorem OnlyThrows.foldlM_mem {σ ι : Type} {f : σ → ι → Except Err σ} {xs : List ι}
    (h : ∀ x ∈ xs, ∀ s, OnlyThrows (f s x)) (s : σ) : OnlyThrows (xs.foldlM f s) := by
  intro e he
  obtain ⟨x, hx, s', h'⟩ := foldlM_error he
  exact h x hx s' e h'

theorem OnlyThrows.confirmBulbsExist (g : BulbGroup) (n : Node) : OnlyThrows (confirmBulbsExist g n) := by
  unfold Loader.confirmBulbsExist
  only_throws []

theorem OnlyThrows.bulbStep {b : Bulb} (hb : TrafficLights.Spec.BuiltBulb b) (t : TrafficLight) (g : BulbGroup)
    (n : Node) (m : Map UniqueBulbId BulbState) : OnlyThrows (bulbStep t g n m b) := by
  obtain ⟨s, hs⟩ := built_default hb
  have hd : OnlyThrows b.defaultState := by rw [hs]; exact OnlyThrows.ok s
  unfold Loader.bulbStep Bulb.uniqueId
  only_throws [hd, OnlyThrows.asMapped _ _]

theorem OnlyThrows.loadBulbStates {lights : TrafficLights.Book} (hl : BuiltLights lights) (n : Node) :
    OnlyThrows (loadBulbStates lights n) := by
  unfold Loader.loadBulbStates
  refine (OnlyThrows.field _ _).bind fun v _ => ?_
  split
  · refine (OnlyThrows.needMap _).bind fun _ _ => (OnlyThrows.foldlM_mem (fun i _ m => ?_) _).bind
      fun _ _ => OnlyThrows.pure _
    unfold lightStep
    refine (OnlyThrows.asId _).bind fun id _ => ?_
    split
    · exact OnlyThrows.throws
    · rename_i t ht
      refine (OnlyThrows.needMap _).bind fun _ _ => OnlyThrows.foldlM_mem (fun i _ m => ?_) _
      unfold groupStep
      refine (OnlyThrows.asId _).bind fun id _ => ?_
      split
      · exact OnlyThrows.throws
      · rename_i g hg
        refine (OnlyThrows.needMap _).bind fun _ _ => (OnlyThrows.confirmBulbsExist _ _).bind fun _ _ =>
          OnlyThrows.foldlM_mem (fun b hb m => ?_) _
        exact OnlyThrows.bulbStep (((hl _ _ ht).2 g (List.mem_of_find?_eq_some hg)).2 b hb) _ _ _ _
  · exact OnlyThrows.pure _

theorem OnlyThrows.buildNextPhases (c : Conv) (phases : List Phase) (n : Node) :
    OnlyThrows (buildNextPhases c phases n) := by
  unfold Loader.buildNextPhases nextStep buildNextPhase verifyPhaseExists
  only_throws [OnlyThrows.required _ _]

theorem OnlyThrows.phaseStates (rm : Map String DiscreteValueRule) (st : Map String DiscreteValue) (n : Node) :
    OnlyThrows (phaseStates rm st n) := by
  unfold Loader.phaseStates stateStep
  only_throws []

theorem OnlyThrows.phaseStep {lights : TrafficLights.Book} (hl : BuiltLights lights)
    (rm : Map String DiscreteValueRule) (s : Map String DiscreteValue × List Phase) (n : Node) :
    OnlyThrows (phaseStep rm lights s n) := by
  unfold Loader.phaseStep
  only_throws [OnlyThrows.required _ _, OnlyThrows.phaseStates _ _ _, OnlyThrows.loadBulbStates hl _]

theorem forM_error {α : Type} {f : α → Except Err Unit} {e : Err} {xs : List α} (h : xs.forM f = .error e) :
    ∃ x ∈ xs, f x = .error e := by
  induction xs with
  | nil => cases h
  | cons x xs ih =>
    have h : (f x >>= fun _ => xs.forM f) = .error e := h
    rw [bind_error] at h
    rcases h with h | ⟨_, -, h⟩
    · exact ⟨x, by simp, h⟩
    · obtain ⟨y, hy, h⟩ := ih h
      exact ⟨y, by simp [hy], h⟩

theorem throwUnless_error {b : Bool} {e : Err} (h : throwUnless b = .error e) : e = .throws :=
  OnlyThrows.throwUnless b e h

theorem indexPhases_error {e : Err} : ∀ {ps : List Phase} {m : Map String Phase}, indexPhases m ps = .error e →
    e = .throws := by
  intro ps
  induction ps with
  | nil => intro m h; cases h
  | cons p ps ih =>
    intro m h
    unfold indexPhases at h
    split at h
    rename_i m' isNew _
    split at h
    · exact ih h
    · exact (Except.error.inj h).symm

/-- The constructor of a ring throws, unless a phase lacks the bulbs that the first one has. -/
theorem make_error {id : String} {ps : List Phase} {next : Option (Map String (List NextPhase))} {e : Err}
    (h : Ring.make id ps next = .error e) : e = .throws ∨
      (e = .ub ∧ ∃ p ∈ ps, ∃ q ∈ ps, p.bulbStates ≠ none ∧ q.bulbStates = none) := by
  unfold Ring.make at h
  rw [bind_error] at h
  rcases h with h | ⟨_, -, h⟩
  · exact Or.inl (throwUnless_error h)
  rw [bind_error] at h
  rcases h with h | ⟨m, -, h⟩
  · exact Or.inl (indexPhases_error h)
  rw [bind_error] at h
  rcases h with h | ⟨n, -, h⟩
  · left
    have : OnlyThrows (buildNext ps next) := by
      unfold buildNext verifyNextPhases
      only_throws []
    exact this e h
  rw [bind_error] at h
  rcases h with h | ⟨_, -, h⟩
  · unfold verifyCoverage at h
    split at h
    · exact Or.inl (Except.error.inj h).symm
    · rename_i r l
      obtain ⟨p, hp, h⟩ := forM_error h
      unfold verifyPhase at h
      simp only [bind_error] at h
      rcases h with h | ⟨_, -, h | ⟨_, -, h | ⟨_, -, h | ⟨_, -, h⟩⟩⟩⟩
      · exact Or.inl (throwUnless_error h)
      · obtain ⟨k, -, h⟩ := forM_error h
        exact Or.inl (throwUnless_error h)
      · exact Or.inl (throwUnless_error h)
      · obtain ⟨k, -, h⟩ := forM_error h
        exact Or.inl (throwUnless_error h)
      · unfold verifyBulbs at h
        split at h
        · cases h
        · rename_i rb hrb
          split at h
          · rename_i hpb
            exact Or.inr ⟨(Except.error.inj h).symm, r, by simp, p, hp, by simp [hrb], hpb⟩
          · left
            rw [bind_error] at h
            rcases h with h | ⟨_, -, h⟩
            · exact throwUnless_error h
            · obtain ⟨k, -, h⟩ := forM_error h
              exact throwUnless_error h
  · cases h

theorem addRules_error {id : String} {ks : List String} {e : Err} : ∀ {m : Map String String},
    (addRules m id ks).2 = .error e → e = .throws := by
  induction ks with
  | nil => intro m h; cases h
  | cons k ks ih =>
    intro m h
    unfold addRules at h
    split at h
    split at h
    · exact ih h
    · exact (Except.error.inj h).symm

theorem addPhaseRing_error {b : Phases.Book} {r : Ring} (hv : Valid r) {e : Err}
    (h : Outcome.get (addPhaseRing b r) = .error e) : e = .throws := by
  obtain ⟨⟨k0, p0, rest, he⟩, -⟩ := valid_ring hv
  have h : (addPhaseRing b r).2 = .error e := by
    generalize addPhaseRing b r = o at h
    obtain ⟨a, e' | u⟩ := o
    · simpa [Outcome.get] using h
    · simp [Outcome.get] at h
  unfold addPhaseRing at h
  split at h
  rename_i rings isNew _
  cases isNew with
  | false => exact (Except.error.inj h).symm
  | true =>
    simp only [if_true, he] at h
    generalize ha : addRules b.rowRules r.id p0.ruleStates.keys = o at h
    obtain ⟨row, e' | u⟩ := o
    · simp only at h
      obtain rfl := Except.error.inj h
      exact addRules_error (by rw [ha])
    · exact addRules_error h

/-- The failures of a loader are those of the function that builds a ring. -/
theorem loadRings_error {build : Node → Except Err Ring} (hb : ∀ d r, build (some d) = .ok r → Valid r) {root : Doc}
    {e : Err} (h : loadRings build root = .error e) : e = .throws ∨
      ∃ docs d, HasField root "PhaseRings" (.seq docs) ∧ d ∈ docs ∧ build (some d) = .error e := by
  unfold loadRings at h
  rw [bind_error] at h
  rcases h with h | ⟨_, -, h⟩
  · exact Or.inl (OnlyThrows.needMap _ e h)
  rw [bind_error] at h
  rcases h with h | ⟨_, hreq, h⟩
  · exact Or.inl (OnlyThrows.required _ _ e h)
  obtain ⟨v, rfl, hv⟩ := required_ok.1 hreq
  rw [bind_error] at h
  rcases h with h | ⟨_, hs, h⟩
  · exact Or.inl (OnlyThrows.needSeq _ e h)
  obtain ⟨docs, hd⟩ := needSeq_ok.1 hs
  obtain rfl := Option.some.inj hd
  rw [nodes_seq] at h
  obtain ⟨n, hn, b, h⟩ := foldlM_error h
  obtain ⟨d, hd, rfl⟩ := List.mem_map.1 hn
  rw [bind_error] at h
  rcases h with h | ⟨r, hr, h⟩
  · exact Or.inr ⟨docs, d, hv, hd, h⟩
  · exact Or.inl (addPhaseRing_error (hb d r hr) h)

theorem defaultStates_error {rm : Map String DiscreteValueRule} {e : Err} (h : defaultStates rm = .error e) :
    e = .aborts ∧ ∃ k r, rm.get? k = some r ∧ ∀ v, ¬ IsDefaultValue r.states v := by
  unfold defaultStates at h
  obtain ⟨⟨k, r⟩, hr, s, h⟩ := foldlM_error h
  rw [bind_error] at h
  rcases h with h | ⟨v, -, h⟩
  · have hv : ∀ v, ¬ IsDefaultValue r.states v := by
      intro v hv
      rw [defaultValue_ok.2 hv] at h
      cases h
    refine ⟨?_, k, r, Map.get?_eq_some.2 hr, hv⟩
    unfold defaultValue at h
    split at h
    · cases h
    · exact (Except.error.inj h).symm
  · cases h

theorem buildPhaseRing_error {rulebook : Rulebook.Book} {lights : TrafficLights.Book} (hl : BuiltLights lights)
    {c : Conv} {d : Doc} {e : Err} (h : buildPhaseRing rulebook lights c (some d) = .error e) : e = .throws ∨
      (e = .outOfRange ∧ ∃ l x id, HasField d "Rules" (.seq l) ∧ x ∈ l ∧ Reads x id ∧
        (Rulebook.rules rulebook).discreteValueRules.get? id = none) ∨
      (e = .aborts ∧ ∃ id r, Rulebook.getDiscreteValueRule rulebook id = .ok r ∧ ∀ v, ¬ IsDefaultValue r.states v) ∨
      (e = .ub ∧ ∃ l, HasField d "Phases" (.seq l) ∧ ∃ p ∈ l, ∃ q ∈ l,
        (∃ v, HasField p "TrafficLightStates" v) ∧ LacksField q "TrafficLightStates") := by
  unfold buildPhaseRing at h
  rw [bind_error] at h
  rcases h with h | ⟨_, hm, h⟩
  · exact Or.inl (OnlyThrows.needMap _ e h)
  obtain ⟨l, hm⟩ := needMap_ok.1 hm
  obtain rfl := Option.some.inj hm
  rw [bind_error] at h
  rcases h with h | ⟨iv, -, h⟩
  · exact Or.inl (OnlyThrows.required _ _ e h)
  rw [bind_error] at h
  rcases h with h | ⟨id, -, h⟩
  · exact Or.inl (OnlyThrows.asId _ e h)
  rw [bind_error] at h
  rcases h with h | ⟨rv, hrv, h⟩
  · exact Or.inl (OnlyThrows.field _ _ e h)
  rw [bind_error] at h
  rcases h with h | ⟨rm, hrm, h⟩
  · rcases field_some_ok.1 hrv with ⟨rfl, -⟩ | ⟨v, rfl, hv⟩
    · left
      exact (Except.error.inj h).symm
    · unfold getRules at h
      rw [bind_error] at h
      rcases h with h | ⟨_, hs, h⟩
      · exact Or.inl (OnlyThrows.needSeq _ e h)
      obtain ⟨rl, hs⟩ := needSeq_ok.1 hs
      obtain rfl := Option.some.inj hs
      split at h
      · cases h
      · rw [nodes_seq] at h
        obtain ⟨n, hn, m, h⟩ := foldlM_error h
        obtain ⟨x, hx, rfl⟩ := List.mem_map.1 hn
        rw [bind_error] at h
        rcases h with h | ⟨id, hid, h⟩
        · exact Or.inl (OnlyThrows.asId _ e h)
        rw [bind_error] at h
        rcases h with h | ⟨r, -, h⟩
        · obtain ⟨h1, h2⟩ := Map.at!_error.1 h
          exact Or.inr (Or.inl ⟨h1, rl, x, id, hv, hx, (asId_ok.1 hid).1, h2⟩)
        · cases h
  obtain ⟨v, rfl, hv⟩ : ∃ v, rv = some v ∧ HasField (.map l) "Rules" v := by
    rcases field_some_ok.1 hrv with ⟨rfl, -⟩ | h
    · cases hrm
    · exact h
  obtain ⟨rl, rs, rfl, hrs, rfl⟩ := getRules_ok.1 hrm
  rw [bind_error] at h
  rcases h with h | ⟨st, hst, h⟩
  · obtain ⟨h1, k, r, h2, h3⟩ := defaultStates_error h
    exact Or.inr (Or.inr (Or.inl ⟨h1, k, r, hrs.mem ((hrs.get _ _).1 h2), h3⟩))
  rw [bind_error] at h
  rcases h with h | ⟨_, hreq, h⟩
  · exact Or.inl (OnlyThrows.required _ _ e h)
  obtain ⟨pv, rfl, hpv⟩ := required_ok.1 hreq
  rw [bind_error] at h
  rcases h with h | ⟨_, hs, h⟩
  · exact Or.inl (OnlyThrows.needSeq _ e h)
  obtain ⟨pl, hs⟩ := needSeq_ok.1 hs
  obtain rfl := Option.some.inj hs
  rw [bind_error] at h
  rcases h with h | ⟨s', hs', h⟩
  · exact Or.inl (OnlyThrows.foldlM (fun s n => OnlyThrows.phaseStep hl _ s n) _ _ e h)
  obtain ⟨h1, h2, hf⟩ := fits_of hrs hst
  obtain ⟨xs, hxs, rfl⟩ := (phaseSteps_ok hl hf).1 hs'
  simp only [List.nil_append] at h
  rw [bind_error] at h
  rcases h with h | ⟨o, -, h⟩
  · exact Or.inl (OnlyThrows.buildNextPhases _ _ _ e h)
  rcases make_error h with h | ⟨h, p, hp, q, hq, hpb, hqb⟩
  · exact Or.inl h
  · refine Or.inr (Or.inr (Or.inr ⟨h, pl, hpv, ?_⟩))
    obtain ⟨b1, x, a1, rfl, rfl⟩ := (mem_phasesFrom _ _ _).1 hp
    obtain ⟨b2, y, a2, he, rfl⟩ := (mem_phasesFrom _ _ _).1 hq
    obtain ⟨dp, hdp, hsp⟩ := forall₂_mem_right hxs (b := x) (by simp)
    obtain ⟨dq, hdq, hsq⟩ := forall₂_mem_right hxs (b := y) (by rw [he]; simp)
    refine ⟨dp, hdp, dq, hdq, ?_, ?_⟩
    · rcases hsp.bulbs with ⟨-, h⟩ | ⟨l, _, h, -⟩
      · simp [h] at hpb
      · exact ⟨_, h⟩
    · rcases hsq.bulbs with ⟨h, -⟩ | ⟨l, _, -, -, h⟩
      · exact h
      · simp [h] at hqb

end Maliput.Loader
