import Verif.Model.IntersectionLoader
import Verif.Spec.IntersectionLoader
import Verif.Lemmas.Intersection
import Verif.Lemmas.RowPhaseRing

set_option autoImplicit false

/-! Lemmas about the intersection loader. -/
namespace Maliput.Loader

open Maliput.Rules Maliput.Phases Maliput.Phases.Spec Maliput.Yaml Maliput.Yaml.Spec Maliput.Loader.Spec
open Maliput.Intersections (Intersection)
open Maliput.Rulebook (getRightOfWay getDiscreteValueRule)

theorem Spec.FieldReads.unique {d : Doc} {k s t : String} (h : FieldReads d k s) (h' : FieldReads d k t) : s = t := by
  obtain ⟨v, h1, h2⟩ := h
  obtain ⟨w, h3, h4⟩ := h'
  rw [h1.unique h3] at h2
  exact h2.unique h4

theorem Spec.SaysIntersection.unique {d : Doc} {x y : IntersectionSays} (h : SaysIntersection d x)
    (h' : SaysIntersection d y) : x = y := by
  obtain ⟨a, b, c⟩ := x
  obtain ⟨a', b', c'⟩ := y
  simp only [IntersectionSays.mk.injEq]
  exact ⟨FieldReads.unique h.id h'.id, FieldReads.unique h.ring h'.ring, FieldReads.unique h.phase h'.phase⟩

/-- What is read of an intersection. -/
theorem readIntersection_ok {rings : Phases.Book} (hb : BuiltRings rings) {d : Doc} {id ringId phaseId : String}
    {ring : Ring} {next : Option NextPhase} :
    readIntersection rings (some d) = .ok (id, ringId, phaseId, ring, next) ↔
      SaysIntersection d ⟨id, ringId, phaseId⟩ ∧ KnownPhase rings ⟨id, ringId, phaseId⟩ ring ∧
        ∃ l, ring.getNextPhases phaseId = .ok l ∧ next = l.head? := by
  unfold readIntersection
  simp only [needMap_bind, required_bind, bind_ok (x := Node.asId _), asId_ok]
  constructor
  · rintro ⟨-, v1, h1, v2, h2, v3, h3, s1, ⟨h4, h4'⟩, s2, ⟨h5, h5'⟩, s3, ⟨h6, h6'⟩, h⟩
    split at h
    · cases h
    · rename_i r hr
      simp only [bind_ok, throwUnless_ok, pure_ok, Prod.mk.injEq] at h
      obtain ⟨_, -, _, h7, l, h8, rfl, rfl, rfl, rfl, rfl⟩ := h
      exact ⟨⟨⟨v1, h1, h4⟩, ⟨v2, h2, h5⟩, ⟨v3, h3, h6⟩, h4', h5', h6'⟩, ⟨hr, Map.has_iff.1 h7⟩, l, h8, rfl⟩
  · rintro ⟨⟨⟨v1, h1, h4⟩, ⟨v2, h2, h5⟩, ⟨v3, h3, h6⟩, h4', h5', h6'⟩, ⟨hr, p, hp⟩, l, h8, rfl⟩
    refine ⟨h1.isMap, v1, h1, v2, h2, v3, h3, id, ⟨h4, h4'⟩, ringId, ⟨h5, h5'⟩, phaseId, ⟨h6, h6'⟩, ?_⟩
    simp only at hr
    simp only [hr, bind_ok, throwUnless_ok, pure_ok, Prod.mk.injEq]
    refine ⟨(), ?_, (), Map.has_iff.2 ⟨p, hp⟩, l, h8, by simp⟩
    obtain ⟨k, q, rest, he⟩ := (valid_ring (hb _ _ hr).2).1
    simp [Map.size, he]

theorem OnlyThrows.readIntersection {rings : Phases.Book} (hb : BuiltRings rings) (n : Node) :
    OnlyThrows (readIntersection rings n) := by
  unfold Loader.readIntersection
  refine (OnlyThrows.needMap _).bind fun _ _ => (OnlyThrows.required _ _).bind fun _ _ =>
    (OnlyThrows.required _ _).bind fun _ _ => (OnlyThrows.required _ _).bind fun _ _ =>
    (OnlyThrows.asId _).bind fun _ _ => (OnlyThrows.asId _).bind fun _ _ => (OnlyThrows.asId _).bind fun k _ => ?_
  split
  · exact OnlyThrows.throws
  · rename_i r hr
    refine (OnlyThrows.throwUnless _).bind fun _ _ => (OnlyThrows.throwUnless _).bind fun _ h => ?_
    obtain ⟨p, hp⟩ := Map.has_iff.1 (throwUnless_ok.1 h)
    obtain ⟨l, hl⟩ := ((valid_ring (hb _ _ hr).2).2.2.2 k).1 ⟨p, hp⟩
    unfold Ring.getNextPhases at hl
    rw [hl]
    exact OnlyThrows.pure _

/-- The change of the provider succeeds. -/
theorem putPhase_spec (p : Provider) (ringId phaseId : String) (next : Option NextPhase) :
    (putPhase p ringId phaseId (next.map (·.id)) (next.bind (·.durationUntil))).2 = .ok () ∧
    ∀ k, (putPhase p ringId phaseId (next.map (·.id)) (next.bind (·.durationUntil))).1.getPhase k =
      if k = ringId then some ⟨phaseId, next.map fun n => (n.id, n.durationUntil)⟩ else p.getPhase k := by
  have hd : DurationOk (next.map (·.id)) (next.bind (·.durationUntil)) := by
    unfold DurationOk
    cases next <;> simp
  have hn : ((next.map (·.id)).map fun n => (n, next.bind (·.durationUntil))) =
      next.map fun n => (n.id, n.durationUntil) := by
    cases next <;> simp
  unfold putPhase
  cases h : p.getPhase ringId with
  | none =>
    have := (pstep_spec p (.add ringId phaseId (next.map (·.id)) (next.bind (·.durationUntil)))).1
      ⟨hd, by simp [h]⟩
    simpa only [Provider.step, ringOf, asked, hn, Option.isSome_none, Bool.not_false, if_true] using this
  | some r =>
    have := (pstep_spec p (.set ringId phaseId (next.map (·.id)) (next.bind (·.durationUntil)))).1 ⟨hd, r, h⟩
    simpa only [Provider.step, ringOf, asked, hn, Option.isSome_some, Bool.not_true, Bool.false_eq_true, if_false] using this

/-! ### The region -/

/-- The zones of the rules with the keys of a map. -/
theorem zones_spec {α : Type} (m : Map String α) (get : String → Except Err (List LaneSRange))
    (hget : ∀ k e, get k = .error e → e = .outOfRange) :
    (∃ zones, (m.entries.mapM fun e => get e.1) = .ok zones ∧
      List.Forall₂ (fun k z => get k = .ok z) m.keys zones) ∨
    ((m.entries.mapM fun e => get e.1) = .error .outOfRange ∧ ∃ k ∈ m.keys, ∀ z, get k ≠ .ok z) := by
  cases h : (m.entries.mapM fun e => get e.1) with
  | ok zones =>
    refine Or.inl ⟨zones, rfl, ?_⟩
    unfold Map.keys
    rw [List.forall₂_map_left_iff]
    exact mapM_ok h
  | error e =>
    obtain ⟨x, hx, he⟩ := mapM_error h
    refine Or.inr ⟨by rw [hget _ _ he], x.1, List.mem_map_of_mem hx, fun z hz => ?_⟩
    rw [he] at hz
    cases hz

theorem zone_bind {α : Type} {x : Except Err α} {f : α → List LaneSRange} {z : List LaneSRange} :
    (do let r ← x; return f r) = .ok z ↔ ∃ r, x = .ok r ∧ f r = z := by
  simp only [bind_ok, pure_ok]

theorem getRegion_spec (rulebook : Rulebook.Book) (phase : Phase) :
    (∃ zones, getRegion rulebook phase = .ok zones.flatten ∧
      List.Forall₂ (DiscreteZone rulebook) phase.discreteStates.keys zones) ∨
    (getRegion rulebook phase = .error .outOfRange ∧
      ∃ k ∈ phase.discreteStates.keys, ∀ z, ¬ DiscreteZone rulebook k z) := by
  have := zones_spec phase.discreteStates (fun k => do
    let rule ← getDiscreteValueRule rulebook k
    return rule.zone) (by
      intro k e h
      rcases bind_error.1 h with h | ⟨r, -, h⟩
      · exact (Map.at!_error.1 h).1
      · cases h)
  simp only [ne_eq, zone_bind] at this
  unfold getRegion
  rcases this with ⟨zones, h1, h2⟩ | ⟨h1, h2⟩
  · exact Or.inl ⟨zones, by rw [h1]; rfl, h2⟩
  · exact Or.inr ⟨by rw [h1]; rfl, h2⟩

theorem getRegionOfOldRules_spec (rulebook : Rulebook.Book) (phase : Phase) :
    (∃ zones, getRegionOfOldRules rulebook phase = .ok zones.flatten ∧
      List.Forall₂ (RowZone rulebook) phase.ruleStates.keys zones) ∨
    (getRegionOfOldRules rulebook phase = .error .outOfRange ∧
      ∃ k ∈ phase.ruleStates.keys, ∀ z, ¬ RowZone rulebook k z) := by
  have := zones_spec phase.ruleStates (fun k => do
    let rule ← getRightOfWay rulebook k
    return rule.zone) (by
      intro k e h
      rcases bind_error.1 h with h | ⟨r, -, h⟩
      · exact (Map.at!_error.1 h).1
      · cases h)
  simp only [ne_eq, zone_bind] at this
  unfold getRegionOfOldRules
  rcases this with ⟨zones, h1, h2⟩ | ⟨h1, h2⟩
  · exact Or.inl ⟨zones, by rw [h1]; rfl, h2⟩
  · exact Or.inr ⟨by rw [h1]; rfl, h2⟩

theorem DiscreteZone.unique {rulebook : Rulebook.Book} {k : String} {a b : List LaneSRange}
    (h : DiscreteZone rulebook k a) (h' : DiscreteZone rulebook k b) : a = b := by
  obtain ⟨r, h1, rfl⟩ := h
  obtain ⟨s, h2, rfl⟩ := h'
  rw [h1] at h2
  cases h2
  rfl

theorem regionOf_spec (rulebook : Rulebook.Book) {ring : Ring} (hv : Valid ring) :
    (∃ region, regionOf rulebook ring = .ok region ∧ IsRegion rulebook ring region ∧ KnownRules rulebook ring) ∨
      (regionOf rulebook ring = .error .outOfRange ∧ ¬ KnownRules rulebook ring) := by
  obtain ⟨k0, p0, rest, he⟩ := (valid_ring hv).1
  have hcov := covers_first hv he
  unfold regionOf
  simp only [he]
  rcases getRegion_spec rulebook p0 with ⟨zones, h1, h2⟩ | ⟨h1, k, hk, hz⟩
  · have hu : IsUnionOfZones (CoversDiscrete ring) (DiscreteZone rulebook) zones.flatten :=
      ⟨_, zones, p0.discreteStates.nodup, fun k => (hcov k).2.symm, h2, rfl⟩
    have hkn : ∀ k, CoversDiscrete ring k → ∃ zone, DiscreteZone rulebook k zone := by
      intro k hk
      obtain ⟨z, -, hz⟩ := forall₂_mem_left h2 ((hcov k).2.1 hk)
      exact ⟨z, hz⟩
    rw [h1]
    by_cases hz : zones.flatten = []
    · have hno : ¬ ∃ k l zone, CoversDiscrete ring k ∧ DiscreteZone rulebook k (l :: zone) := by
        rintro ⟨k, l, zone, hk, hk'⟩
        obtain ⟨z, hz1, hz2⟩ := forall₂_mem_left h2 ((hcov k).2.1 hk)
        rw [List.flatten_eq_nil_iff] at hz
        have := DiscreteZone.unique hk' hz2
        rw [hz z hz1] at this
        cases this
      have hred : (Except.ok zones.flatten >>= fun region =>
          if region.isEmpty = true then getRegionOfOldRules rulebook p0 else pure region : Except Err _) =
          getRegionOfOldRules rulebook p0 := by
        simp only [hz, bind, Except.bind, List.isEmpty_nil, if_true]
      rw [hred]
      rw [hz] at hu
      rcases getRegionOfOldRules_spec rulebook p0 with ⟨rows, h3, h4⟩ | ⟨h3, k, hk, hk'⟩
      · refine Or.inl ⟨_, h3, Or.inr ⟨hu, _, rows, p0.ruleStates.nodup, fun k => (hcov k).1.symm, h4, rfl⟩,
          hkn, Or.inr fun k hk => ?_⟩
        obtain ⟨z, -, hz⟩ := forall₂_mem_left h4 ((hcov k).1.1 hk)
        exact ⟨z, hz⟩
      · refine Or.inr ⟨h3, ?_⟩
        rintro ⟨-, h | h⟩
        · exact hno h
        · obtain ⟨z, hz⟩ := h k ((hcov k).1.2 hk)
          exact hk' z hz
    · refine Or.inl ⟨zones.flatten, ?_, Or.inl ⟨hz, hu⟩, hkn, Or.inl ?_⟩
      · simp only [bind, Except.bind, List.isEmpty_iff, hz, if_false, pure, Except.pure]
      · obtain ⟨z, hz1, hz2⟩ : ∃ z ∈ zones, z ≠ [] := by
          rw [List.flatten_eq_nil_iff] at hz
          push Not at hz
          exact hz
        obtain ⟨k, hk, hk'⟩ := forall₂_mem_right h2 hz1
        obtain ⟨l, zone, rfl⟩ := List.exists_cons_of_ne_nil hz2
        exact ⟨k, l, zone, (hcov k).2.2 hk, hk'⟩
  · refine Or.inr ⟨by rw [h1]; rfl, fun h => ?_⟩
    obtain ⟨z, h⟩ := h.1 k ((hcov k).2.2 hk)
    exact hz z h

/-! ### The loop -/

theorem phasesAfter_nil (rings : Phases.Book) (p : Provider) : PhasesAfter rings [] p p :=
  ⟨[], .nil, fun k res => by simp [lastOf_nil]⟩

theorem phasesAfter_cons {rings : Phases.Book} {x : IntersectionSays} {xs : List IntersectionSays}
    {a : String × Result String} {p p1 p' : Provider} (ha : IsInitial rings x a)
    (h1 : ∀ k, p1.getPhase k = if k = x.ring then some a.2 else p.getPhase k)
    (h : PhasesAfter rings xs p1 p') : PhasesAfter rings (x :: xs) p p' := by
  obtain ⟨as, h2, h3⟩ := h
  refine ⟨a :: as, .cons ha h2, fun k res => ?_⟩
  have hkeys : ∀ k, (∀ e ∈ as, e.1 ≠ k) ↔ ∀ y ∈ xs, y.ring ≠ k := by
    intro k
    constructor
    · intro h y hy
      obtain ⟨e, he, he'⟩ := forall₂_mem_left h2 hy
      rw [← he'.1]
      exact h e he
    · intro h e he
      obtain ⟨y, hy, he'⟩ := forall₂_mem_right h2 he
      rw [he'.1]
      exact h y hy
  rw [h3, h1, lastOf_cons, hkeys]
  obtain ⟨ar, av⟩ := a
  obtain ⟨rfl, -⟩ := ha
  by_cases hk : k = x.ring
  · subst hk
    simp only [if_true, Option.some.injEq, Prod.mk.injEq, true_and, List.mem_cons, forall_eq_or_imp, ne_eq,
      not_true_eq_false, false_and, or_false]
  · have hk' : x.ring ≠ k := fun h => hk h.symm
    simp only [hk, if_false, Prod.mk.injEq, hk', false_and, and_false, or_false, List.mem_cons, forall_eq_or_imp,
      ne_eq, not_false_eq_true, true_and]

/-- One intersection: an exception before the provider is changed, or the change and then the region. -/
theorem buildIntersection_spec (rulebook : Rulebook.Book) {rings : Phases.Book} (hb : BuiltRings rings) (p : Provider)
    (d : Doc) :
    ((¬ ∃ x r, SaysIntersection d x ∧ KnownPhase rings x r) ∧
      buildIntersection rulebook rings p (some d) = (p, .error .throws)) ∨
    ∃ x r a p', SaysIntersection d x ∧ KnownPhase rings x r ∧ IsInitial rings x a ∧
      (∀ k, p'.getPhase k = if k = x.ring then some a.2 else p.getPhase k) ∧
      ((∃ i, buildIntersection rulebook rings p (some d) = (p', .ok i) ∧ IsIntersection rulebook rings x i ∧
        KnownRules rulebook r) ∨
      (buildIntersection rulebook rings p (some d) = (p', .error .outOfRange) ∧ ¬ KnownRules rulebook r)) := by
  unfold buildIntersection
  cases h : readIntersection rings (some d) with
  | error e =>
    refine Or.inl ⟨?_, by rw [OnlyThrows.readIntersection hb _ e h]⟩
    rintro ⟨⟨id, ringId, phaseId⟩, r, h1, h2⟩
    obtain ⟨l, hl⟩ := ((valid_ring (hb _ _ h2.1).2).2.2.2 phaseId).1 h2.2
    rw [(readIntersection_ok hb).2 ⟨h1, h2, l, hl, rfl⟩] at h
    cases h
  | ok t =>
    obtain ⟨id, ringId, phaseId, ring, next⟩ := t
    obtain ⟨h1, h2, l, hl, rfl⟩ := (readIntersection_ok hb).1 h
    obtain ⟨h3, h4⟩ := putPhase_spec p ringId phaseId l.head?
    simp only
    generalize putPhase p ringId phaseId (l.head?.map (·.id)) (l.head?.bind (·.durationUntil)) = o at h3 h4
    obtain ⟨p', res⟩ := o
    simp only at h3 h4
    subst h3
    refine Or.inr ⟨⟨id, ringId, phaseId⟩, ring, (ringId, ⟨phaseId, l.head?.map fun n => (n.id, n.durationUntil)⟩), p',
      h1, h2, ⟨rfl, ring, l, h2, hl, rfl, rfl⟩, h4, ?_⟩
    rcases regionOf_spec rulebook (hb _ _ h2.1).2 with ⟨region, h5, h6, h7⟩ | ⟨h5, h6⟩
    · exact Or.inl ⟨⟨id, region, ring⟩, by simp only [h5]; rfl, ⟨rfl, h2.1, h6⟩, h7⟩
    · exact Or.inr ⟨by simp only [h5]; rfl, h6⟩

/-- How far the loop gets: `xs` are the intersections that changed the provider. -/
theorem addIntersections_spec (rulebook : Rulebook.Book) {rings : Phases.Book} (hb : BuiltRings rings) (docs : List Doc) :
    ∀ (p : Provider) (b : Intersections.Book), ∃ pre post xs p' res,
      addIntersections rulebook rings (docs.map some) p b = (p', res) ∧ docs = pre ++ post ∧
      List.Forall₂ SaysIntersection pre xs ∧ (∀ x ∈ xs, ∃ r, KnownPhase rings x r) ∧ PhasesAfter rings xs p p' ∧
      ((∃ is, post = [] ∧ List.Forall₂ (IsIntersection rulebook rings) xs is ∧
          (∀ x ∈ xs, ∀ r, KnownPhase rings x r → KnownRules rulebook r) ∧
          (xs.map (·.id)).Nodup ∧ (∀ x ∈ xs, b.get? x.id = none) ∧
          res = .ok ((is.map some).foldl (fun b i => (b.add i).1) b)) ∨
        (res = .error .throws ∧ ∃ d rest, post = d :: rest ∧ ¬ ∃ x r, SaysIntersection d x ∧ KnownPhase rings x r) ∨
        (res = .error .outOfRange ∧ ∃ before x r, xs = before ++ [x] ∧ KnownPhase rings x r ∧ ¬ KnownRules rulebook r) ∨
        (res = .error .ub ∧ ∃ before x, xs = before ++ [x] ∧ ((∃ y ∈ before, y.id = x.id) ∨ b.get? x.id ≠ none))) := by
  induction docs with
  | nil =>
    intro p b
    exact ⟨[], [], [], p, .ok b, rfl, rfl, .nil, by simp, phasesAfter_nil _ _, Or.inl ⟨[], rfl, .nil, by simp, by simp, by simp, rfl⟩⟩
  | cons d docs ih =>
    intro p b
    simp only [List.map_cons]
    unfold addIntersections
    rcases buildIntersection_spec rulebook hb p d with ⟨h1, h2⟩ | ⟨x, r, a, p1, h1, h2, h3, h4, h5⟩
    · rw [h2]
      exact ⟨[], d :: docs, [], p, _, rfl, rfl, .nil, by simp, phasesAfter_nil _ _, Or.inr (Or.inl ⟨rfl, d, docs, rfl, h1⟩)⟩
    · rcases h5 with ⟨i, h5, h6, h7⟩ | ⟨h5, h6⟩
      · rw [h5]
        simp only [Intersections.Book.add]
        by_cases hn : b.get? i.id = none
        · have hem := Map.emplace_new i hn
          simp only [hem.1, if_true]
          obtain ⟨pre, post, xs, p', res, g1, g2, g3, g4, g5, g6⟩ := ih p1 (b.emplace i.id i).1
          refine ⟨d :: pre, post, x :: xs, p', res, g1, by rw [g2]; rfl, .cons h1 g3, ?_, phasesAfter_cons h3 h4 g5, ?_⟩
          · intro y hy
            rcases List.mem_cons.1 hy with rfl | hy
            · exact ⟨r, h2⟩
            · exact g4 y hy
          · rcases g6 with ⟨is, rfl, k1, k2, k3, k4, rfl⟩ | g6 | ⟨rfl, before, y, s, rfl, k1, k2⟩ | ⟨rfl, before, y, rfl, k1⟩
            · refine Or.inl ⟨i :: is, rfl, .cons h6 k1, ?_, ?_, ?_, rfl⟩
              · intro y hy s hs
                rcases List.mem_cons.1 hy with rfl | hy
                · have : s = r := by
                    have := hs.1
                    rw [h2.1] at this
                    exact (Option.some.inj this).symm
                  rw [this]
                  exact h7
                · exact k2 y hy s hs
              · rw [List.map_cons, List.nodup_cons]
                refine ⟨?_, k3⟩
                rw [List.mem_map]
                rintro ⟨y, hy, hid⟩
                have := k4 y hy
                rw [hem.2, hid, h6.id, if_pos rfl] at this
                cases this
              · intro y hy
                rcases List.mem_cons.1 hy with rfl | hy
                · rw [← h6.id]
                  exact hn
                · have := k4 y hy
                  rw [hem.2] at this
                  split at this
                  · cases this
                  · exact this
            · exact Or.inr (Or.inl g6)
            · exact Or.inr (Or.inr (Or.inl ⟨rfl, x :: before, y, s, rfl, k1, k2⟩))
            · refine Or.inr (Or.inr (Or.inr ⟨rfl, x :: before, y, rfl, ?_⟩))
              rcases k1 with ⟨z, hz, hz'⟩ | k1
              · exact Or.inl ⟨z, by simp [hz], hz'⟩
              · rw [hem.2] at k1
                split at k1
                · rename_i heq
                  exact Or.inl ⟨x, by simp, by rw [heq, h6.id]⟩
                · exact Or.inr k1
        · rw [Map.emplace_old hn]
          exact ⟨[d], docs, [x], p1, _, rfl, rfl, .cons h1 .nil, by simpa using ⟨r, h2⟩,
            phasesAfter_cons h3 h4 (phasesAfter_nil _ _), Or.inr (Or.inr (Or.inr ⟨rfl, [], x, rfl, Or.inr (by rwa [h6.id] at hn)⟩))⟩
      · rw [h5]
        exact ⟨[d], docs, [x], p1, _, rfl, rfl, .cons h1 .nil, by simpa using ⟨r, h2⟩,
          phasesAfter_cons h3 h4 (phasesAfter_nil _ _), Or.inr (Or.inr (Or.inl ⟨rfl, [], x, r, rfl, h2, h6⟩))⟩

/-- The whole document. -/
theorem loadIntersections_eq (rulebook : Rulebook.Book) (rings : Phases.Book) (p : Provider) (root : Doc) :
    (∃ docs, SaysIntersections root docs ∧
      loadIntersections rulebook rings p root = addIntersections rulebook rings (docs.map some) p .empty) ∨
    ((¬ ∃ docs, SaysIntersections root docs) ∧ loadIntersections rulebook rings p root = (p, .error .throws)) := by
  have hok : ∀ nodes, (do
      Node.needMap (some root)
      let v ← Node.field (some root) "Intersections"
      if !v.isDefined then return []
      v.needSeq
      return v.nodes : Except Err (List Node)) = .ok nodes ↔ ∃ docs, SaysIntersections root docs ∧ nodes = docs.map some := by
    intro nodes
    rw [needMap_bind]
    constructor
    · rintro ⟨⟨l, rfl⟩, h⟩
      rw [field_bind] at h
      rcases h with ⟨h1, h2⟩ | ⟨v, h1, h2⟩
      · simp only [Node.isDefined, Option.isSome_none, Bool.not_false, if_true, pure_ok] at h2
        exact ⟨[], Or.inr ⟨h1, rfl⟩, h2.symm⟩
      · simp only [Node.isDefined, Option.isSome_some, Bool.not_true, Bool.false_eq_true, if_false, needSeq_bind,
          pure_ok] at h2
        obtain ⟨⟨docs, rfl⟩, h2⟩ := h2
        exact ⟨docs, Or.inl h1, by rw [← h2, nodes_seq]⟩
    · rintro ⟨docs, h1 | ⟨h1, rfl⟩, rfl⟩
      · obtain ⟨l, rfl⟩ := h1.isMap
        refine ⟨⟨l, rfl⟩, ?_⟩
        rw [field_bind]
        refine Or.inr ⟨_, h1, ?_⟩
        simp only [Node.isDefined, Option.isSome_some, Bool.not_true, Bool.false_eq_true, if_false, needSeq_bind,
          pure_ok, nodes_seq]
        exact ⟨⟨docs, rfl⟩, trivial⟩
      · obtain ⟨l, rfl, h⟩ := h1
        refine ⟨⟨l, rfl⟩, ?_⟩
        rw [field_bind]
        refine Or.inl ⟨⟨l, rfl, h⟩, ?_⟩
        simp [Node.isDefined, pure, Except.pure]
  have hthrows : OnlyThrows (do
      Node.needMap (some root)
      let v ← Node.field (some root) "Intersections"
      if !v.isDefined then return []
      v.needSeq
      return v.nodes : Except Err (List Node)) := by
    refine (OnlyThrows.needMap _).bind fun _ _ => (OnlyThrows.field _ _).bind fun v _ => ?_
    split
    · exact OnlyThrows.pure _
    · exact (OnlyThrows.needSeq _).bind fun _ _ => OnlyThrows.pure _
  unfold loadIntersections
  generalize (do
      Node.needMap (some root)
      let v ← Node.field (some root) "Intersections"
      if !v.isDefined then return []
      v.needSeq
      return v.nodes : Except Err (List Node)) = x at hok hthrows
  cases x with
  | error e =>
    refine Or.inr ⟨?_, by rw [hthrows e rfl]⟩
    rintro ⟨docs, h⟩
    cases (hok _).2 ⟨docs, h, rfl⟩
  | ok nodes =>
    obtain ⟨docs, h, rfl⟩ := (hok nodes).1 rfl
    exact Or.inl ⟨docs, h, rfl⟩

end Maliput.Loader
