import Mathlib.Data.List.Nodup
import Verif.Spec.BranchPoint

set_option autoImplicit false
namespace Maliput.Topo

/-- Invariant of every branch point, whatever calls were made. -/
structure BpInv (p : BranchPoint) : Prop where
  mem : ∀ le s, le ∈ p.side s ↔ p.confluent le = some s
  ong : ∀ le s, p.ongoing le = some s ↔ p.confluent le = some s.other
  nodup : ∀ s, (p.side s).Nodup
  deft : ∀ le d, p.defaults le = some d → ∃ o, p.ongoing le = some o ∧ p.confluent d = some o

/-- Invariant of every topology, whatever calls were made. -/
structure Inv (t : Topology) : Prop where
  bp : ∀ b, BpInv (t.bps b)
  att : ∀ le b, t.attached le = some b → ∃ s, (t.bps b).confluent le = some s

theorem Side.other_other (s : Side) : s.other.other = s := by cases s <;> rfl
theorem Side.other_ne (s : Side) : s.other ≠ s := by cases s <;> simp [Side.other]
theorem Side.eq_or (s s' : Side) : s = s' ∨ s = s'.other := by cases s <;> cases s' <;> simp [Side.other]

theorem side_add (p : BranchPoint) (s s' : Side) (le : LaneEnd) :
    (p.add s le).side s' = if s' = s then p.side s' ++ [le] else p.side s' := by
  cases s <;> cases s' <;> simp [BranchPoint.add, BranchPoint.side]

theorem add_confluent (p : BranchPoint) (s : Side) (le : LaneEnd) : (p.add s le).confluent = p.confluent := by
  cases s <;> rfl
theorem add_ongoing (p : BranchPoint) (s : Side) (le : LaneEnd) : (p.add s le).ongoing = p.ongoing := by
  cases s <;> rfl
theorem add_defaults (p : BranchPoint) (s : Side) (le : LaneEnd) : (p.add s le).defaults = p.defaults := by
  cases s <;> rfl

/-- The branch point after `AddBranch` has inserted the lane end. -/
def insertEnd (p : BranchPoint) (side : Side) (le : LaneEnd) : BranchPoint :=
  { p.add side le with confluent := Function.update p.confluent le (some side),
                       ongoing := Function.update p.ongoing le (some side.other) }

theorem side_insertEnd (p : BranchPoint) (s s' : Side) (le : LaneEnd) :
    (insertEnd p s le).side s' = if s' = s then p.side s' ++ [le] else p.side s' := by
  rw [← side_add]; cases s' <;> rfl

theorem insertEnd_inv {p : BranchPoint} (h : BpInv p) (side : Side) (le : LaneEnd)
    (hc : p.confluent le = none) : BpInv (insertEnd p side le) := by
  have hm : ∀ s, le ∉ p.side s := fun s hs => by rw [h.mem, hc] at hs; cases hs
  have ho : p.ongoing le = none := by
    cases hh : p.ongoing le with
    | none => rfl
    | some s => rw [h.ong, hc] at hh; cases hh
  constructor
  · intro le' s
    rw [side_insertEnd]
    simp only [insertEnd, Function.update_apply]
    by_cases e : le' = le
    · subst e
      simp only [if_true, Option.some.injEq]
      by_cases e2 : s = side
      · simp [e2]
      · simp only [e2, if_false]
        exact ⟨fun x => absurd x (hm s), fun x => absurd x.symm e2⟩
    · simp only [e, if_false]
      rw [← h.mem]
      split <;> simp [e]
  · intro le' s
    simp only [insertEnd, Function.update_apply]
    by_cases e : le' = le
    · simp only [e, if_true, Option.some.injEq]
      constructor
      · intro x; rw [← x, Side.other_other]
      · intro x; rw [x, Side.other_other]
    · simp only [e, if_false]; exact h.ong le' s
  · intro s
    rw [side_insertEnd]
    split
    · rw [List.nodup_append]
      refine ⟨h.nodup s, List.nodup_singleton _, ?_⟩
      intro a ha b hb
      rw [List.mem_singleton] at hb
      subst hb
      rintro rfl
      exact hm s ha
    · exact h.nodup s
  · intro le' d hd
    have hd' : p.defaults le' = some d := by
      have : (insertEnd p side le).defaults = p.defaults := by simp only [insertEnd]; exact add_defaults _ _ _
      rw [← this]; exact hd
    obtain ⟨o, h1, h2⟩ := h.deft le' d hd'
    refine ⟨o, ?_, ?_⟩
    · simp only [insertEnd, Function.update_apply]
      rw [if_neg]
      · exact h1
      · rintro rfl; rw [ho] at h1; cases h1
    · simp only [insertEnd, Function.update_apply]
      rw [if_neg]
      · exact h2
      · rintro rfl; rw [hc] at h2; cases h2

/-- The four ways `AddBranch` can go. -/
theorem addBranch_cases {t : Topology} (h : Inv t) (bp : Nat) (side : Side) (lane : Option Nat) (w : Which) :
    (lane = none ∧ addBranch t bp side lane w = (t, .error .throws)) ∨
    ∃ l, lane = some l ∧
      (((∃ s, (t.bps bp).confluent ⟨l, w⟩ = some s) ∧ addBranch t bp side lane w = (t, .error .throws)) ∨
       ((t.bps bp).confluent ⟨l, w⟩ = none ∧ t.attached ⟨l, w⟩ = none ∧
          addBranch t bp side lane w = (⟨Function.update t.bps bp (insertEnd (t.bps bp) side ⟨l, w⟩),
            Function.update t.attached ⟨l, w⟩ (some bp)⟩, .ok ())) ∨
       ((t.bps bp).confluent ⟨l, w⟩ = none ∧ (∃ b, b ≠ bp ∧ t.attached ⟨l, w⟩ = some b) ∧
          addBranch t bp side lane w = (⟨Function.update t.bps bp (insertEnd (t.bps bp) side ⟨l, w⟩),
            t.attached⟩, .error .throws))) := by
  cases lane with
  | none => exact Or.inl ⟨rfl, rfl⟩
  | some l =>
    refine Or.inr ⟨l, rfl, ?_⟩
    cases hc : (t.bps bp).confluent ⟨l, w⟩ with
    | some s =>
      refine Or.inl ⟨⟨s, rfl⟩, ?_⟩
      simp [addBranch, hc]
    | none =>
      have ho : (t.bps bp).ongoing ⟨l, w⟩ = none := by
        cases hh : (t.bps bp).ongoing ⟨l, w⟩ with
        | none => rfl
        | some s => rw [(h.bp bp).ong, hc] at hh; cases hh
      right
      cases ha : t.attached ⟨l, w⟩ with
      | none =>
        refine Or.inl ⟨rfl, rfl, ?_⟩
        simp [addBranch, hc, ho, setBranchPoint, ha, insertEnd, add_confluent, add_ongoing]
      | some b =>
        refine Or.inr ⟨rfl, ⟨b, ?_, rfl⟩, ?_⟩
        · rintro rfl
          obtain ⟨s, hs⟩ := h.att _ _ ha
          rw [hc] at hs; cases hs
        · simp [addBranch, hc, ho, setBranchPoint, ha, insertEnd, add_confluent, add_ongoing]

/-- The two ways `SetDefault` can go. -/
theorem setDefault_cases (t : Topology) (bp : Nat) (le d : LaneEnd) :
    setDefault t bp le d = (t, .error .throws) ∨
    ∃ o, (t.bps bp).ongoing le = some o ∧ (t.bps bp).confluent d = some o ∧
      setDefault t bp le d = (⟨Function.update t.bps bp
        { t.bps bp with defaults := Function.update (t.bps bp).defaults le (some d) }, t.attached⟩, .ok ()) := by
  cases ho : (t.bps bp).ongoing le with
  | none => left; simp [setDefault, ho]
  | some o =>
    cases hc : (t.bps bp).confluent d with
    | none => left; simp [setDefault, ho, hc]
    | some c =>
      by_cases e : c = o
      · right; exact ⟨o, rfl, by rw [e], by simp [setDefault, ho, hc, e]⟩
      · left; simp [setDefault, ho, hc, e]

theorem inv_insert {t : Topology} (h : Inv t) (bp : Nat) (side : Side) (le : LaneEnd)
    (hc : (t.bps bp).confluent le = none) :
    Inv ⟨Function.update t.bps bp (insertEnd (t.bps bp) side le), t.attached⟩ := by
  constructor
  · intro b
    simp only [Function.update_apply]
    split
    · exact insertEnd_inv (h.bp bp) side le hc
    · exact h.bp b
  · intro le' b hb
    obtain ⟨s, hs⟩ := h.att le' b hb
    simp only [Function.update_apply]
    split
    · rename_i e
      subst e
      simp only [insertEnd, Function.update_apply]
      split
      · exact ⟨_, rfl⟩
      · exact ⟨s, hs⟩
    · exact ⟨s, hs⟩

theorem inv_exec {t : Topology} (h : Inv t) (o : Op) : Inv (o.exec t).1 := by
  cases o with
  | addBranch bp side lane w =>
    simp only [Op.exec]
    rcases addBranch_cases h bp side lane w with ⟨_, e⟩ | ⟨l, _, ⟨_, e⟩ | ⟨hc, ha, e⟩ | ⟨hc, _, e⟩⟩ <;> rw [e]
    · exact h
    · exact h
    · have h' := inv_insert h bp side ⟨l, w⟩ hc
      refine ⟨h'.bp, ?_⟩
      intro le b hb
      simp only [Function.update_apply] at hb
      split at hb
      · rename_i e; subst e
        cases hb
        refine ⟨side, ?_⟩
        simp [insertEnd]
      · exact h'.att le b hb
    · exact inv_insert h bp side ⟨l, w⟩ hc
  | setDefault bp le d =>
    simp only [Op.exec]
    rcases setDefault_cases t bp le d with e | ⟨o, ho, hc, e⟩ <;> rw [e]
    · exact h
    · constructor
      · intro b
        simp only [Function.update_apply]
        split
        · have hb := h.bp bp
          refine ⟨hb.mem, hb.ong, hb.nodup, ?_⟩
          intro le' d' hd
          simp only [Function.update_apply] at hd
          split at hd
          · rename_i e2; subst e2
            cases hd
            exact ⟨o, ho, hc⟩
          · exact hb.deft le' d' hd
        · exact h.bp b
      · intro le' b hb
        obtain ⟨s, hs⟩ := h.att le' b hb
        refine ⟨s, ?_⟩
        simp only [Function.update_apply]
        split
        · rename_i e2; subst e2; exact hs
        · exact hs

theorem inv_init : Inv .init := by
  constructor
  · intro b
    constructor
    · intro le s; cases s <;> simp [Topology.init, BranchPoint.empty, BranchPoint.side]
    · intro le s; simp [Topology.init, BranchPoint.empty]
    · intro s; cases s <;> simp [Topology.init, BranchPoint.empty, BranchPoint.side]
    · intro le d h; cases h
  · intro le b h; cases h

theorem inv_run (ops : List Op) : ∀ t, Inv t → Inv (run t ops) := by
  induction ops with
  | nil => intro t h; exact h
  | cons o os ih => intro t h; exact ih _ (inv_exec h o)

/-- Additional invariant when every call succeeded. -/
def Att (t : Topology) : Prop := ∀ le b s, (t.bps b).confluent le = some s → t.attached le = some b

theorem att_exec {t t' : Topology} (h : Inv t) (ha : Att t) (o : Op) (e : o.exec t = (t', .ok ())) : Att t' := by
  cases o with
  | addBranch bp side lane w =>
    simp only [Op.exec] at e
    rcases addBranch_cases h bp side lane w with ⟨_, e'⟩ | ⟨l, _, ⟨_, e'⟩ | ⟨hc, hn, e'⟩ | ⟨hc, _, e'⟩⟩ <;>
      rw [e'] at e <;> simp only [Prod.mk.injEq, reduceCtorEq, and_false, and_true] at e
    subst e
    intro le b s hs
    simp only [Function.update_apply] at hs ⊢
    split at hs
    · rename_i e2; subst e2
      simp only [insertEnd, Function.update_apply] at hs
      split at hs
      · rename_i e3; simp [e3]
      · rename_i e3; simp only [e3, if_false]; exact ha le b s hs
    · have := ha le b s hs
      split
      · rename_i e3; subst e3; rw [hn] at this; cases this
      · exact this
  | setDefault bp le d =>
    simp only [Op.exec] at e
    rcases setDefault_cases t bp le d with e' | ⟨o, ho, hc, e'⟩ <;>
      rw [e'] at e <;> simp only [Prod.mk.injEq, reduceCtorEq, and_false, and_true] at e
    subst e
    intro le b s hs
    simp only [Function.update_apply] at hs
    split at hs
    · rename_i e2; subst e2; exact ha le b s hs
    · exact ha le b s hs

theorem built_inv {t : Topology} (h : Built t) : Inv t ∧ Att t := by
  induction h with
  | init => exact ⟨inv_init, fun le b s h => by cases h⟩
  | step o _ e ih =>
    refine ⟨?_, att_exec ih.1 ih.2 o e⟩
    have := inv_exec ih.1 o
    rwa [e] at this

theorem getConfluent_eq {t : Topology} (h : Inv t) {le : LaneEnd} {b : Nat} (ha : t.attached le = some b) :
    ∃ s, (t.bps b).confluent le = some s ∧ getConfluent t le = .ok ((t.bps b).side s) ∧
      getOngoing t le = .ok ((t.bps b).side s.other) := by
  obtain ⟨s, hs⟩ := h.att le b ha
  have ho : (t.bps b).ongoing le = some s.other := by rw [(h.bp b).ong, Side.other_other]; exact hs
  exact ⟨s, hs, by simp [getConfluent, ha, hs], by simp [getOngoing, ha, ho]⟩

theorem att_of_getConfluent {t : Topology} {le : LaneEnd} {c : List LaneEnd} (h : getConfluent t le = .ok c) :
    ∃ b, t.attached le = some b := by
  unfold getConfluent at h
  cases ha : t.attached le with
  | none => rw [ha] at h; cases h
  | some b => exact ⟨b, rfl⟩

theorem att_of_getOngoing {t : Topology} {le : LaneEnd} {c : List LaneEnd} (h : getOngoing t le = .ok c) :
    ∃ b, t.attached le = some b := by
  unfold getOngoing at h
  cases ha : t.attached le with
  | none => rw [ha] at h; cases h
  | some b => exact ⟨b, rfl⟩

/-- The stored default is the one of the last successful `SetDefault`. -/
theorem defaults_run (le : LaneEnd) (bp : Nat) : ∀ (ops : List Op) (t : Topology) (acc : Option LaneEnd),
    (t.bps bp).defaults le = acc → ((run t ops).bps bp).defaults le = lastDefault bp le t ops acc := by
  intro ops
  induction ops with
  | nil => intro t acc h; exact h
  | cons o os ih =>
    intro t acc h
    refine ih (o.exec t).1 _ ?_
    cases o with
    | addBranch b side lane w =>
      simp only [Op.exec]
      rw [← h]
      cases lane with
      | none => rfl
      | some l =>
        have hdef : ∀ t' : Topology, (setBranchPoint t' ⟨l, w⟩ b).1.bps = t'.bps := by
          intro t'; unfold setBranchPoint; split <;> rfl
        simp only [addBranch]
        split
        · rfl
        · split
          · rfl
          · rw [hdef]
            simp only [Function.update_apply]
            split
            · rename_i e; rw [e, add_defaults]
            · rfl
    | setDefault b le' d' =>
      simp only [Op.exec]
      rcases setDefault_cases t b le' d' with e | ⟨o, _, _, e⟩ <;> rw [e]
      · exact h
      · simp only [Function.update_apply]
        by_cases e1 : bp = b
        · subst e1
          by_cases e2 : le = le'
          · subst e2; simp
          · simp [e2, Ne.symm e2, h]
        · simp [e1, Ne.symm e1, h]

/-- Every call of the history succeeds. -/
def allOk : Topology → List Op → Bool
  | _, [] => true
  | t, o :: os => (match (o.exec t).2 with | .ok () => true | .error _ => false) && allOk (o.exec t).1 os

theorem built_run : ∀ (ops : List Op) (t : Topology), Built t → allOk t ops = true → Built (run t ops) := by
  intro ops
  induction ops with
  | nil => intro t h _; exact h
  | cons o os ih =>
    intro t h ho
    simp only [allOk, Bool.and_eq_true] at ho
    refine ih _ (.step o h ?_) ho.2
    cases hr : (o.exec t).2 with
    | ok u => cases u; rw [← hr]
    | error e => rw [hr] at ho; cases ho.1

end Maliput.Topo
