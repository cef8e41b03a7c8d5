import Mathlib.Tactic.Linarith
import Verif.Lemmas.DeprecatedRules
import Verif.Lemmas.Map
import Verif.Lemmas.Rulebook
import Verif.Lemmas.Yaml
import Verif.Model.RulebookLoader
import Verif.Spec.RulebookLoader

set_option autoImplicit false

/-! Each function of the rulebook loader accepts exactly what the document format says. -/
namespace Maliput.Loader

open Maliput.Rules Maliput.Rulebook Maliput.Yaml Maliput.Yaml.Spec Maliput.Loader.Spec

theorem required_ok {d : Doc} {k : String} {n : Node} :
    required (some d) k = .ok n ↔ ∃ v, n = some v ∧ HasField d k v := by
  rw [required]
  simp only [bind_ok, throwUnless_ok, pure_ok]
  constructor
  · rintro ⟨n', h, -, hd, rfl⟩
    cases n' with
    | none => simp [Node.isDefined] at hd
    | some v =>
      refine ⟨v, rfl, ?_⟩
      cases d with
      | map l =>
        rcases field_some_ok.1 h with ⟨h, -⟩ | ⟨w, hw, hf⟩
        · cases h
        · injection hw with hw
          subst hw
          exact hf
      | _ => simp [Node.field] at h
  · rintro ⟨v, rfl, hv⟩
    obtain ⟨l, rfl⟩ := hv.isMap
    exact ⟨some v, field_some_ok.2 (Or.inr ⟨v, rfl, hv⟩), (), rfl, rfl⟩

/-- The id of a required key. -/
theorem required_id_ok {d : Doc} {k s : String} :
    (required (some d) k >>= fun n => Node.asId n) = .ok s ↔ FieldReads d k s ∧ s ≠ "" := by
  simp only [bind_ok, required_ok]
  constructor
  · rintro ⟨n, ⟨v, rfl, hv⟩, h⟩
    have := asId_ok.1 h
    exact ⟨⟨v, hv, this.1⟩, this.2⟩
  · rintro ⟨⟨v, hv, h⟩, hs⟩
    exact ⟨some v, ⟨v, rfl, hv⟩, asId_ok.2 ⟨h, hs⟩⟩

theorem asSRange_ok {c : Conv} {d : Doc} {r : SRange} :
    asSRange c (some d) = .ok r ↔ ∃ a b, d = .seq [a, b] ∧ ReadsNumber c a r.s0 ∧ ReadsNumber c b r.s1 ∧
      0 ≤ r.s0 ∧ 0 ≤ r.s1 := by
  constructor
  · intro h
    unfold asSRange at h
    split at h
    · rename_i a b hd
      injection hd with hd
      subst hd
      simp only [bind_ok, asDouble_ok, SRange.setS0, SRange.setS1, throwUnless_ok, pure_ok,
        decide_eq_true_eq] at h
      obtain ⟨s0, h0, r', ⟨-, hs0, rfl⟩, s1, h1, -, hs1, rfl⟩ := h
      exact ⟨a, b, rfl, h0, h1, hs0, hs1⟩
    · cases h
  · rintro ⟨a, b, rfl, h0, h1, hs0, hs1⟩
    simp only [asSRange, bind_ok, asDouble_ok, SRange.setS0, SRange.setS1, throwUnless_ok, pure_ok,
      decide_eq_true_eq]
    exact ⟨r.s0, h0, ⟨r.s0, 0⟩, ⟨(), hs0, rfl⟩, r.s1, h1, (), hs1, rfl⟩

theorem buildLaneSRange_ok {g : String → Option ℚ} {c : Conv} {laneKey rangeKey : String} {d : Doc}
    {r : LaneSRange} : buildLaneSRange g c laneKey rangeKey (some d) = .ok r ↔
      SaysLaneRange g c laneKey rangeKey d r ∧ ValidLaneRange g r := by
  unfold buildLaneSRange
  simp only [bind_ok, needMap_ok, required_ok]
  constructor
  · rintro ⟨-, ⟨l, hl⟩, n, ⟨v, rfl, hv⟩, laneId, hid, h⟩
    injection hl with hl
    subst hl
    obtain ⟨hread, hne⟩ := asId_ok.1 hid
    cases hg : g laneId with
    | none => simp [hg] at h
    | some length =>
      rw [hg] at h
      simp only [bind_ok, obtainSRange, pure_ok] at h
      obtain ⟨sr, ⟨n, hn, hsr⟩, rfl⟩ := h
      rcases field_some_ok.1 hn with ⟨rfl, hlack⟩ | ⟨w, rfl, hw⟩
      · simp only [Node.isDefined, Option.isSome_none, Bool.false_eq_true, if_false, SRange.make, bind_ok,
          throwUnless_ok, pure_ok, decide_eq_true_eq] at hsr
        obtain ⟨-, -, -, hlen, rfl⟩ := hsr
        exact ⟨⟨⟨v, hv, hread⟩, Or.inl ⟨hlack, length, hg, rfl⟩⟩, hne, ⟨length, hg, le_refl _⟩, le_refl _, hlen⟩
      · simp only [Node.isDefined, Option.isSome_some, if_true, bind_ok, throwUnless_ok, pure_ok,
          decide_eq_true_eq, asSRange_ok] at hsr
        obtain ⟨sr', ⟨a, b, rfl, h0, h1, hs0, hs1⟩, -, -, -, hlen, rfl⟩ := hsr
        exact ⟨⟨⟨v, hv, hread⟩, Or.inr ⟨a, b, hw, h0, h1⟩⟩, hne, ⟨length, hg, hlen⟩, hs0, hs1⟩
  · rintro ⟨⟨⟨v, hv, hread⟩, hr⟩, hne, ⟨length, hg, hlen⟩, hs0, hs1⟩
    obtain ⟨l, rfl⟩ := hv.isMap
    refine ⟨(), ⟨l, rfl⟩, some v, ⟨v, rfl, hv⟩, r.laneId, asId_ok.2 ⟨hread, hne⟩, ?_⟩
    rw [hg]
    simp only [bind_ok, obtainSRange, pure_ok]
    rcases hr with ⟨hlack, length', hg', hsr⟩ | ⟨a, b, hf, h0, h1⟩
    · rw [hg] at hg'
      injection hg' with hg'
      subst hg'
      refine ⟨⟨0, length⟩, ⟨none, field_some_ok.2 (Or.inl ⟨rfl, hlack⟩), ?_⟩, ?_⟩
      · rw [hsr] at hs1
        simp only [Node.isDefined, Option.isSome_none, Bool.false_eq_true, if_false, SRange.make, bind_ok,
          throwUnless_ok, pure_ok, decide_eq_true_eq]
        exact ⟨(), le_refl _, (), hs1, trivial⟩
      · cases r
        simp only at hsr
        rw [hsr]
    · refine ⟨r.sRange, ⟨some (.seq [a, b]), field_some_ok.2 (Or.inr ⟨_, rfl, hf⟩), ?_⟩, rfl⟩
      simp only [Node.isDefined, Option.isSome_some, if_true, bind_ok, throwUnless_ok, pure_ok,
          decide_eq_true_eq, asSRange_ok]
      exact ⟨r.sRange, ⟨a, b, rfl, h0, h1, hs0, hs1⟩, (), hs0, (), hlen, rfl⟩

theorem forall₂_and {α β : Type} {R : α → β → Prop} {P : β → Prop} {l : List α} {m : List β} :
    List.Forall₂ (fun a b => R a b ∧ P b) l m ↔ List.Forall₂ R l m ∧ ∀ b ∈ m, P b := by
  constructor
  · intro h
    induction h with
    | nil => exact ⟨.nil, by simp⟩
    | cons h _ ih => exact ⟨.cons h.1 ih.1, by simpa using ⟨h.2, ih.2⟩⟩
  · rintro ⟨h, hp⟩
    induction h with
    | nil => exact .nil
    | cons h _ ih =>
      exact .cons ⟨h, hp _ (by simp)⟩ (ih fun b hb => hp b (by simp [hb]))

theorem buildLaneSRoute_ok {g : String → Option ℚ} {c : Conv} {laneKey rangeKey : String} {d : Doc}
    {zone : List LaneSRange} : buildLaneSRoute g c laneKey rangeKey (some d) = .ok zone ↔
      ∃ l, d = .seq l ∧ List.Forall₂ (SaysLaneRange g c laneKey rangeKey) l zone ∧
        ∀ z ∈ zone, ValidLaneRange g z := by
  rw [buildLaneSRoute]
  simp only [bind_ok, needSeq_ok]
  constructor
  · rintro ⟨-, ⟨l, hl⟩, h⟩
    injection hl with hl
    subst hl
    have := mapM_seq.1 h
    simp only [buildLaneSRange_ok] at this
    exact ⟨l, rfl, forall₂_and.1 this⟩
  · rintro ⟨l, rfl, h⟩
    refine ⟨(), ⟨l, rfl⟩, mapM_seq.2 ?_⟩
    simp only [buildLaneSRange_ok]
    exact forall₂_and.2 h

theorem asIds_ok {l : List Doc} {ids : List String} :
    (Node.nodes (some (.seq l))).mapM Node.asId = .ok ids ↔ List.Forall₂ Reads l ids ∧ ∀ x ∈ ids, x ≠ "" := by
  rw [mapM_seq]
  simp only [asId_ok]
  exact forall₂_and

theorem asYieldGroup_ok {d : Doc} {ids : List String} :
    asYieldGroup (some d) = .ok ids ↔ SaysIds d ids ∧ ∀ x ∈ ids, x ≠ "" := by
  rw [asYieldGroup]
  simp only [bind_ok, needSeq_ok]
  constructor
  · rintro ⟨-, ⟨l, hl⟩, h⟩
    injection hl with hl
    subst hl
    have := asIds_ok.1 h
    exact ⟨⟨l, rfl, this.1⟩, this.2⟩
  · rintro ⟨⟨l, rfl, h⟩, hne⟩
    exact ⟨(), ⟨l, rfl⟩, asIds_ok.2 ⟨h, hne⟩⟩

theorem buildRowState_ok {l : List (Doc × Doc)} {name : String} {t : RowStateType} {r : List RowState} :
    buildRowState (some (.map l)) name t = .ok r ↔ (r = [] ∧ LacksField (.map l) name) ∨
      ∃ v ids, HasField (.map l) name v ∧ SaysIds v ids ∧ (∀ x ∈ ids, x ≠ "") ∧ r = [⟨name, t, ids⟩] := by
  rw [buildRowState]
  simp only [bind_ok]
  constructor
  · rintro ⟨n, hn, h⟩
    rcases field_some_ok.1 hn with ⟨rfl, hlack⟩ | ⟨w, rfl, hw⟩
    · simp only [Node.isDefined, Option.isSome_none, Bool.false_eq_true, if_false, pure_ok] at h
      exact Or.inl ⟨h.symm, hlack⟩
    · simp only [Node.isDefined, Option.isSome_some, if_true, bind_ok, asYieldGroup_ok, pure_ok] at h
      obtain ⟨ids, ⟨hs, hne⟩, rfl⟩ := h
      exact Or.inr ⟨w, ids, hw, hs, hne, rfl⟩
  · rintro (⟨rfl, hlack⟩ | ⟨v, ids, hf, hs, hne, rfl⟩)
    · exact ⟨none, field_some_ok.2 (Or.inl ⟨rfl, hlack⟩), rfl⟩
    · refine ⟨some v, field_some_ok.2 (Or.inr ⟨v, rfl, hf⟩), ?_⟩
      simp only [Node.isDefined, Option.isSome_some, if_true, bind_ok, asYieldGroup_ok, pure_ok]
      exact ⟨ids, ⟨hs, hne⟩, rfl⟩

theorem Spec.SaysIds.unique {d : Doc} {a b : List String} (h : SaysIds d a) (h' : SaysIds d b) : a = b := by
  obtain ⟨l, rfl, h⟩ := h
  obtain ⟨l', hl, h'⟩ := h'
  injection hl with hl
  subst hl
  induction h generalizing b with
  | nil => cases h'; rfl
  | cons h _ ih =>
    cases h' with
    | cons h1 h2 => rw [Reads.unique h h1, ih h2]

/-- What one of the three blocks contributes. -/
theorem mem_buildRowState {l : List (Doc × Doc)} {name : String} {t : RowStateType} {r : List RowState}
    (h : buildRowState (some (.map l)) name t = .ok r) (s : RowState) :
    s ∈ r ↔ ∃ v ids, HasField (.map l) name v ∧ SaysIds v ids ∧ s = ⟨name, t, ids⟩ := by
  rcases buildRowState_ok.1 h with ⟨rfl, hlack⟩ | ⟨v, ids, hf, hs, -, rfl⟩
  · simp only [List.not_mem_nil, false_iff, not_exists, not_and]
    exact fun v ids hf => (hf.not_lacks hlack).elim
  · rw [List.mem_singleton]
    constructor
    · rintro rfl
      exact ⟨v, ids, hf, hs, rfl⟩
    · rintro ⟨v', ids', hf', hs', rfl⟩
      have := hf.unique hf'
      subst this
      rw [hs.unique hs']

theorem buildRowState_sublist {l : List (Doc × Doc)} {name : String} {t : RowStateType} {r : List RowState}
    (h : buildRowState (some (.map l)) name t = .ok r) : (r.map RowState.id).Sublist [name] := by
  rcases buildRowState_ok.1 h with ⟨rfl, -⟩ | ⟨v, ids, -, -, -, rfl⟩
  · simp
  · simp

theorem buildRowState_yields {l : List (Doc × Doc)} {name : String} {t : RowStateType} {r : List RowState}
    (h : buildRowState (some (.map l)) name t = .ok r) : ∀ s ∈ r, ∀ y ∈ s.yieldTo, y ≠ "" := by
  rcases buildRowState_ok.1 h with ⟨rfl, -⟩ | ⟨v, ids, -, -, hne, rfl⟩
  · simp
  · simpa using hne

/-- The states listed by a document are read completely. -/
theorem buildRowStates_says {d : Doc} {states : List RowState} (h : buildRowStates (some d) = .ok states) :
    (∃ l, d = .map l ∧ (l.map (·.1)).Nodup ∧
      ∀ e ∈ l, (∃ n ∈ rowStateNames, e.1 = .scalar n.1) ∧ ∃ ids, SaysIds e.2 ids) ∧
      (states.map RowState.id).Nodup ∧ (∀ s ∈ states, ∀ y ∈ s.yieldTo, y ≠ "") ∧
      ∀ s, s ∈ states ↔ ∃ t v ids, (s.id, t) ∈ rowStateNames ∧ HasField d s.id v ∧ SaysIds v ids ∧
        s = ⟨s.id, t, ids⟩ := by
  rw [buildRowStates] at h
  simp only [bind_ok, needMap_ok, throwUnless_ok, pure_ok, decide_eq_true_eq] at h
  obtain ⟨-, ⟨l, hl⟩, a, ha, b, hb, c, hc, n, hn, -, hlen, rfl⟩ := h
  injection hl with hl
  subst hl
  have hn : n = l.length := by
    simp only [Node.size, Except.ok.injEq] at hn
    exact hn.symm
  subst hn
  have hsub : ((a ++ b ++ c).map RowState.id).Sublist ["Go", "Stop", "StopThenGo"] := by
    rw [List.map_append, List.map_append]
    exact ((buildRowState_sublist ha).append (buildRowState_sublist hb)).append (buildRowState_sublist hc)
  have hnd : ((a ++ b ++ c).map RowState.id).Nodup := List.Nodup.sublist hsub (by decide)
  have hmem : ∀ s, s ∈ a ++ b ++ c ↔ ∃ t v ids, (s.id, t) ∈ rowStateNames ∧ HasField (.map l) s.id v ∧
      SaysIds v ids ∧ s = ⟨s.id, t, ids⟩ := by
    intro s
    simp only [List.mem_append, mem_buildRowState ha, mem_buildRowState hb, mem_buildRowState hc, rowStateNames,
      List.mem_cons, List.not_mem_nil, or_false, Prod.mk.injEq]
    constructor
    · rintro ((⟨v, ids, h1, h2, rfl⟩ | ⟨v, ids, h1, h2, rfl⟩) | ⟨v, ids, h1, h2, rfl⟩)
      · exact ⟨.go, v, ids, by simp, h1, h2, rfl⟩
      · exact ⟨.stop, v, ids, by simp, h1, h2, rfl⟩
      · exact ⟨.stopThenGo, v, ids, by simp, h1, h2, rfl⟩
    · rintro ⟨t, v, ids, ⟨hi, rfl⟩ | ⟨hi, rfl⟩ | ⟨hi, rfl⟩, h1, h2, h3⟩ <;> rw [hi] at h1 h3
      · exact Or.inl (Or.inl ⟨v, ids, h1, h2, h3⟩)
      · exact Or.inl (Or.inr ⟨v, ids, h1, h2, h3⟩)
      · exact Or.inr ⟨v, ids, h1, h2, h3⟩
  have hinj : Function.Injective Doc.scalar := fun x y h => by injection h
  have hperm : (((a ++ b ++ c).map RowState.id).map Doc.scalar).Perm (l.map (·.1)) := by
    apply List.Subperm.perm_of_length_le
    · apply List.Nodup.subperm (hnd.map hinj)
      intro k hk
      simp only [List.mem_map] at hk
      obtain ⟨i, ⟨s, hs, rfl⟩, rfl⟩ := hk
      obtain ⟨t, v, ids, -, hf, -⟩ := (hmem s).1 hs
      exact List.mem_map.2 ⟨_, hf.mem, rfl⟩
    · simp [← hlen]
  refine ⟨⟨l, rfl, hperm.nodup_iff.1 (hnd.map hinj), ?_⟩, hnd, ?_, hmem⟩
  · intro e he
    have := hperm.mem_iff.2 (List.mem_map_of_mem (f := (·.1)) he)
    simp only [List.mem_map] at this
    obtain ⟨i, ⟨s, hs, rfl⟩, h⟩ := this
    obtain ⟨t, v, ids, hi, hf, hids, -⟩ := (hmem s).1 hs
    have he2 : e = (.scalar s.id, v) :=
      List.inj_on_of_nodup_map (hperm.nodup_iff.1 (hnd.map hinj)) he hf.mem h.symm
    exact ⟨⟨(s.id, t), hi, h.symm⟩, ids, by rw [he2]; exact hids⟩
  · intro s hs
    simp only [List.mem_append] at hs
    rcases hs with (hs | hs) | hs
    · exact buildRowState_yields ha s hs
    · exact buildRowState_yields hb s hs
    · exact buildRowState_yields hc s hs

theorem field_map (l : List (Doc × Doc)) (k : String) :
    LacksField (.map l) k ∨ ∃ v, HasField (.map l) k v := by
  cases h : lookup l k with
  | none => exact Or.inl (lookup_none.1 h)
  | some v => exact Or.inr ⟨v, lookup_some.1 h⟩

theorem buildRowStates_of {l : List (Doc × Doc)} (hk : (l.map (·.1)).Nodup)
    (hn : ∀ e ∈ l, ∃ n ∈ rowStateNames, e.1 = .scalar n.1)
    (hv : ∀ name t v, (name, t) ∈ rowStateNames → HasField (.map l) name v →
      ∃ ids, SaysIds v ids ∧ ∀ x ∈ ids, x ≠ "") : ∃ states, buildRowStates (some (.map l)) = .ok states := by
  have block : ∀ name t, (name, t) ∈ rowStateNames → ∃ r, buildRowState (some (.map l)) name t = .ok r := by
    intro name t hm
    rcases field_map l name with h | ⟨v, h⟩
    · exact ⟨[], buildRowState_ok.2 (Or.inl ⟨rfl, h⟩)⟩
    · obtain ⟨ids, h1, h2⟩ := hv name t v hm h
      exact ⟨_, buildRowState_ok.2 (Or.inr ⟨v, ids, h, h1, h2, rfl⟩)⟩
  obtain ⟨a, ha⟩ := block "Go" .go (by simp [rowStateNames])
  obtain ⟨b, hb⟩ := block "Stop" .stop (by simp [rowStateNames])
  obtain ⟨c, hc⟩ := block "StopThenGo" .stopThenGo (by simp [rowStateNames])
  refine ⟨a ++ b ++ c, ?_⟩
  rw [buildRowStates]
  simp only [bind_ok, needMap_ok, throwUnless_ok, pure_ok, decide_eq_true_eq]
  refine ⟨(), ⟨l, rfl⟩, a, ha, b, hb, c, hc, l.length, rfl, (), ?_, rfl⟩
  have hinj : Function.Injective Doc.scalar := fun x y h => by injection h
  have hsub : ((a ++ b ++ c).map RowState.id).Sublist ["Go", "Stop", "StopThenGo"] := by
    rw [List.map_append, List.map_append]
    exact ((buildRowState_sublist ha).append (buildRowState_sublist hb)).append (buildRowState_sublist hc)
  have hnd : ((a ++ b ++ c).map RowState.id).Nodup := List.Nodup.sublist hsub (by decide)
  have hperm : (((a ++ b ++ c).map RowState.id).map Doc.scalar).Perm (l.map (·.1)) := by
    rw [List.perm_ext_iff_of_nodup (hnd.map hinj) hk]
    intro k
    simp only [List.mem_map, List.mem_append]
    have key : ∀ {name : String} {t : RowStateType} {r : List RowState} {v : Doc},
        buildRowState (some (.map l)) name t = .ok r → (name, t) ∈ rowStateNames → HasField (.map l) name v →
        ∃ s ∈ r, s.id = name := by
      intro name t r v hr hm hf
      obtain ⟨ids, h1, -⟩ := hv name t v hm hf
      exact ⟨⟨name, t, ids⟩, (mem_buildRowState hr _).2 ⟨v, ids, hf, h1, rfl⟩, rfl⟩
    constructor
    · rintro ⟨i, ⟨s, hs, rfl⟩, rfl⟩
      rcases hs with (hs | hs) | hs
      · obtain ⟨v, ids, hf, -, rfl⟩ := (mem_buildRowState ha s).1 hs
        exact ⟨_, hf.mem, rfl⟩
      · obtain ⟨v, ids, hf, -, rfl⟩ := (mem_buildRowState hb s).1 hs
        exact ⟨_, hf.mem, rfl⟩
      · obtain ⟨v, ids, hf, -, rfl⟩ := (mem_buildRowState hc s).1 hs
        exact ⟨_, hf.mem, rfl⟩
    · rintro ⟨e, he, rfl⟩
      obtain ⟨⟨name, t⟩, hm, hname⟩ := hn e he
      have hf : ∃ v, HasField (.map l) name v := by
        rcases field_map l name with h | h
        · exact (lacksField_map.1 h e he hname).elim
        · exact h
      obtain ⟨v, hf⟩ := hf
      rw [hname]
      simp only [rowStateNames, List.mem_cons, List.not_mem_nil, or_false, Prod.mk.injEq] at hm
      rcases hm with ⟨rfl, rfl⟩ | ⟨rfl, rfl⟩ | ⟨rfl, rfl⟩
      · obtain ⟨s, hs, hi⟩ := key ha (by simp [rowStateNames]) hf
        exact ⟨s.id, ⟨s, Or.inl (Or.inl hs), rfl⟩, by rw [hi]⟩
      · obtain ⟨s, hs, hi⟩ := key hb (by simp [rowStateNames]) hf
        exact ⟨s.id, ⟨s, Or.inl (Or.inr hs), rfl⟩, by rw [hi]⟩
      · obtain ⟨s, hs, hi⟩ := key hc (by simp [rowStateNames]) hf
        exact ⟨s.id, ⟨s, Or.inr hs, rfl⟩, by rw [hi]⟩
  have := hperm.length_eq
  simpa using this

theorem buildZoneType_ok {l : List (Doc × Doc)} {z : ZoneType} :
    buildZoneType (some (.map l)) = .ok z ↔ (LacksField (.map l) "ZoneType" ∧ z = .stopExcluded) ∨
      (FieldReads (.map l) "ZoneType" "StopExcluded" ∧ z = .stopExcluded) ∨
      (FieldReads (.map l) "ZoneType" "StopAllowed" ∧ z = .stopAllowed) := by
  rw [buildZoneType]
  simp only [bind_ok]
  constructor
  · rintro ⟨n, hn, h⟩
    rcases field_some_ok.1 hn with ⟨rfl, hlack⟩ | ⟨v, rfl, hf⟩
    · simp only [Node.isDefined, Option.isSome_none, Bool.false_eq_true, if_false, pure_ok] at h
      exact Or.inl ⟨hlack, h.symm⟩
    · simp only [Node.isDefined, Option.isSome_some, if_true, bind_ok, asString_ok] at h
      obtain ⟨s, hs, h⟩ := h
      split at h
      · next he =>
        subst he
        rw [pure_ok] at h
        exact Or.inr (Or.inl ⟨⟨v, hf, hs⟩, h.symm⟩)
      · split at h
        · next he =>
          subst he
          rw [pure_ok] at h
          exact Or.inr (Or.inr ⟨⟨v, hf, hs⟩, h.symm⟩)
        · cases h
  · rintro (⟨hlack, rfl⟩ | ⟨⟨v, hf, hs⟩, rfl⟩ | ⟨⟨v, hf, hs⟩, rfl⟩)
    · exact ⟨none, field_some_ok.2 (Or.inl ⟨rfl, hlack⟩), rfl⟩
    all_goals
      refine ⟨some v, field_some_ok.2 (Or.inr ⟨v, rfl, hf⟩), ?_⟩
      simp only [Node.isDefined, Option.isSome_some, if_true, bind_ok, asString_ok]
      exact ⟨_, hs, by simp [pure, Except.pure]⟩

/-- The ids below a traffic light. -/
theorem bulbGroups_ok {d : Doc} {ids : List String} :
    (Node.nodes (some d)).mapM Node.asId = .ok ids ↔ SaysBulbGroups d ids ∧ ∀ x ∈ ids, x ≠ "" := by
  cases d with
  | null =>
    simp only [Node.nodes, Node.items, List.map_nil, List.mapM_nil, pure_ok, SaysBulbGroups, SaysIds]
    constructor
    · rintro rfl
      exact ⟨Or.inr ⟨rfl, Or.inl trivial⟩, by simp⟩
    · rintro ⟨⟨l, h, -⟩ | ⟨rfl, -⟩, -⟩
      · cases h
      · rfl
  | scalar s =>
    simp only [Node.nodes, Node.items, List.map_nil, List.mapM_nil, pure_ok, SaysBulbGroups, SaysIds]
    constructor
    · rintro rfl
      exact ⟨Or.inr ⟨rfl, Or.inr (Or.inl ⟨s, rfl⟩)⟩, by simp⟩
    · rintro ⟨⟨l, h, -⟩ | ⟨rfl, -⟩, -⟩
      · cases h
      · rfl
  | seq l =>
    rw [asIds_ok]
    simp only [SaysBulbGroups, SaysIds, Doc.seq.injEq, exists_eq_left', reduceCtorEq, exists_false, or_false,
      and_false]
  | map l =>
    cases l with
    | nil =>
      simp only [Node.nodes, Node.items, List.map_nil, List.mapM_nil, pure_ok, SaysBulbGroups, SaysIds]
      constructor
      · rintro rfl
        exact ⟨Or.inr ⟨rfl, Or.inr (Or.inr trivial)⟩, by simp⟩
      · rintro ⟨⟨l, h, -⟩ | ⟨rfl, -⟩, -⟩
        · cases h
        · rfl
    | cons e l =>
      simp only [Node.nodes, Node.items, List.map_cons, List.mapM_cons, bind_ok, SaysBulbGroups, SaysIds]
      constructor
      · rintro ⟨x, h, -⟩
        simp [Node.asId, Node.asString, bind, Except.bind] at h
      · rintro ⟨⟨l, h, -⟩ | ⟨rfl, h | ⟨s, h⟩ | h⟩, -⟩ <;> cases h

theorem map_ext {α : Type} {m m' : Map String α} (h : m.entries = m'.entries) : m = m' := by
  cases m; cases m'; simp_all

theorem relatedLoop_ok {l : List (Doc × Doc)} {m m' : Map String (List String)} :
    relatedBulbGroupsLoop m (l.map fun e => ⟨none, some e.1, some e.2⟩) = .ok m' ↔
      ∃ new, m'.entries = m.entries ++ new ∧ List.Forall₂ (fun (e : Doc × Doc) (kv : String × List String) =>
        (Reads e.1 kv.1 ∧ SaysBulbGroups e.2 kv.2) ∧ kv.1 ≠ "" ∧ ∀ x ∈ kv.2, x ≠ "") l new := by
  induction l generalizing m with
  | nil =>
    simp only [List.map_nil, relatedBulbGroupsLoop, Except.ok.injEq, List.forall₂_nil_left_iff]
    constructor
    · rintro rfl
      exact ⟨[], by simp, rfl⟩
    · rintro ⟨new, h, rfl⟩
      exact map_ext (by simpa using h.symm)
  | cons e l ih =>
    simp only [List.map_cons, relatedBulbGroupsLoop, bind_ok, asId_ok, bulbGroups_ok, throwUnless_ok]
    constructor
    · rintro ⟨light, ⟨h1, h2⟩, groups, ⟨h3, h4⟩, -, hnew, h⟩
      have hn := Map.emplace_flag.1 hnew
      obtain ⟨new, h5, h6⟩ := ih.1 h
      rw [Map.emplace_entries hn] at h5
      exact ⟨(light, groups) :: new, by simpa using h5, .cons ⟨⟨h1, h3⟩, h2, h4⟩ h6⟩
    · rintro ⟨new, h, hf⟩
      cases hf with
      | cons h1 h2 =>
        rename_i kv new
        obtain ⟨⟨h3, h4⟩, h5, h6⟩ := h1
        have hn : m.get? kv.1 = none := by
          rw [Map.get?_eq_none]
          intro hm
          have := m'.nodup
          rw [h, List.map_append, List.map_cons] at this
          exact (List.nodup_append.1 this).2.2 _ hm kv.1 (by simp) rfl
        refine ⟨kv.1, ⟨h3, h5⟩, kv.2, ⟨h4, h6⟩, (), Map.emplace_flag.2 hn, ?_⟩
        refine ih.2 ⟨new, ?_, h2⟩
        rw [h, Map.emplace_entries hn]
        simp

theorem buildRelatedBulbGroups_ok {l : List (Doc × Doc)} {m : Map String (List String)} :
    buildRelatedBulbGroups (some (.map l)) = .ok m ↔
      ((LacksField (.map l) "RelatedBulbGroups" ∧ m.entries = []) ∨
        ∃ l', HasField (.map l) "RelatedBulbGroups" (.map l') ∧ List.Forall₂
          (fun (e : Doc × Doc) (kv : String × List String) => Reads e.1 kv.1 ∧ SaysBulbGroups e.2 kv.2)
          l' m.entries) ∧ ∀ kv ∈ m.entries, kv.1 ≠ "" ∧ ∀ x ∈ kv.2, x ≠ "" := by
  rw [buildRelatedBulbGroups]
  simp only [bind_ok]
  constructor
  · rintro ⟨n, hn, h⟩
    rcases field_some_ok.1 hn with ⟨rfl, hlack⟩ | ⟨v, rfl, hf⟩
    · simp only [Node.isDefined, Option.isSome_none, Bool.false_eq_true, if_false, pure_ok] at h
      subst h
      exact ⟨Or.inl ⟨hlack, rfl⟩, by simp [Map.empty]⟩
    · simp only [Node.isDefined, Option.isSome_some, if_true, bind_ok, needMap_ok] at h
      obtain ⟨-, ⟨l', hl'⟩, h⟩ := h
      injection hl' with hl'
      subst hl'
      obtain ⟨new, h1, h2⟩ := relatedLoop_ok.1 h
      simp only [Map.empty, List.nil_append] at h1
      subst h1
      obtain ⟨h2, h3⟩ := forall₂_and.1 h2
      exact ⟨Or.inr ⟨l', hf, h2⟩, h3⟩
  · rintro ⟨⟨hlack, he⟩ | ⟨l', hf, h2⟩, h3⟩
    · refine ⟨none, field_some_ok.2 (Or.inl ⟨rfl, hlack⟩), ?_⟩
      simp only [Node.isDefined, Option.isSome_none, Bool.false_eq_true, if_false, pure_ok]
      exact map_ext he.symm
    · refine ⟨some (.map l'), field_some_ok.2 (Or.inr ⟨_, rfl, hf⟩), ?_⟩
      simp only [Node.isDefined, Option.isSome_some, if_true, bind_ok, needMap_ok]
      exact ⟨(), ⟨l', rfl⟩, relatedLoop_ok.2 ⟨m.entries, by simp [Map.empty], forall₂_and.2 ⟨h2, h3⟩⟩⟩

end Maliput.Loader
