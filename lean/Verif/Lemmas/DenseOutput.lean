import Verif.Lemmas.Monad
import Verif.Lemmas.PiecewiseHermite
import Verif.Lemmas.PiecewiseJoin
import Verif.Spec.DenseOutput

set_option autoImplicit false
set_option linter.unusedSectionVars false

/-! Lemmas for the stepwise dense output. -/
namespace Maliput.DenseOut
open Maliput Piecewise Piecewise.Spec Maliput.Spec

variable {R : Type} [Field R] [LinearOrder R] [IsStrictOrderedRing R]

/-- The spline through samples, in closed form. -/
def sp (l : List (Sample R)) : PP R := ⟨l.map fun x => x.1, consecutive hermiteQ l⟩

theorem sp_eq (l : List (Sample R)) : sp l = hermitePP (l.map fun x => x.1) (l.map fun x => x.2.1) (l.map fun x => x.2.2) := by
  unfold sp hermitePP
  rw [List.zip_map', List.zip_map']
  simp

theorem splineOf_ok {l : List (Sample R)} (h : SplineStep l) : splineOf l = .ok (sp l) := by
  unfold splineOf
  rw [cubicHermite_eq (by simp) (by simp) (by simpa using h.1) h.2, sp_eq]
  rfl

theorem sp_valid {l : List (Sample R)} (h : SplineStep l) : Valid (sp l) := by
  rw [sp_eq]
  exact hermitePP_valid (by simp) (by simp) (by simpa using h.1) h.2

/-- Adding a step that continues the samples. -/
def join (l : List (Sample R)) (s : Step R) : List (Sample R) := if l = [] then s else l ++ s.tail

theorem merged_eq (steps : List (Step R)) (h : ∀ s ∈ steps, s ≠ []) : merged steps = steps.foldl join [] := by
  have key : ∀ (rest : List (Step R)) (l : List (Sample R)), l ≠ [] → rest.foldl join l = l ++ rest.flatMap List.tail := by
    intro rest
    induction rest with
    | nil => intro l _; simp
    | cons s rest ih =>
      intro l hl
      rw [List.foldl_cons]
      have e : join l s = l ++ s.tail := if_neg hl
      rw [e, ih _ (by simp [hl]), List.flatMap_cons, List.append_assoc]
  cases steps with
  | nil => rfl
  | cons s rest =>
    rw [List.foldl_cons]
    have e : join ([] : List (Sample R)) s = s := if_pos rfl
    rw [e, key _ _ (h s (by simp))]
    rfl

theorem consecutive_append {α β : Type} (f : α → α → β) : ∀ (l : List α) (a : α) (r : List α),
    consecutive f (l ++ a :: r) = consecutive f (l ++ [a]) ++ consecutive f (a :: r)
  | [], a, r => by
    show _ = [] ++ _
    rfl
  | [x], a, r => rfl
  | x :: y :: l, a, r => by
    have := consecutive_append f (y :: l) a r
    simp only [List.cons_append, consecutive] at this ⊢
    rw [this]

theorem spline_ne_nil {s : Step R} (h : SplineStep s) : s ≠ [] := by
  rintro rfl
  have := h.1
  simp at this

theorem snoc_of_last {α : Type} {l : List α} {a : α} (h : l.getLast? = some a) : l = l.dropLast ++ [a] := by
  have hne : l ≠ [] := by rintro rfl; simp at h
  have e := List.dropLast_append_getLast hne
  rw [List.getLast?_eq_some_getLast hne] at h
  rw [← Option.some.inj h, e]

theorem continues_shape {l s : List (Sample R)} (hs : s ≠ []) (h : l.getLast? = s.head?) :
    ∃ (l' : List (Sample R)) (a : Sample R) (r : List (Sample R)), l = l' ++ [a] ∧ s = a :: r := by
  cases s with
  | nil => exact absurd rfl hs
  | cons a r => exact ⟨l.dropLast, a, r, snoc_of_last h, rfl⟩

theorem joined_spline {l : List (Sample R)} {s : Step R} (hl : SplineStep l) (hs : SplineStep s) (h : l.getLast? = s.head?) :
    SplineStep (l ++ s.tail) := by
  obtain ⟨l', a, r, rfl, rfl⟩ := continues_shape (spline_ne_nil hs) h
  refine ⟨by have := hl.1; simp at this ⊢; omega, ?_⟩
  have h1 := hl.2
  have h2 := hs.2
  unfold Apart at *
  simp only [List.tail_cons, List.map_append, List.map_cons, List.map_nil, List.append_assoc, List.singleton_append] at *
  rw [List.isChain_append] at h1 ⊢
  refine ⟨h1.1, h2, ?_⟩
  intro x hx y hy
  exact h1.2.2 x hx y (by simpa using hy)

theorem joined_last {l : List (Sample R)} {s : Step R} (hs : SplineStep s) : (l ++ s.tail).getLast? = s.getLast? := by
  match s, hs.1 with
  | a :: b :: r, _ =>
    rw [List.tail_cons, List.getLast?_append, List.getLast?_cons_cons]
    cases h : (b :: r).getLast? with
    | none => simp at h
    | some x => rfl

theorem concatenate_sp {l : List (Sample R)} {s : Step R} (hl : SplineStep l) (hs : SplineStep s) (h : l.getLast? = s.head?) :
    (sp l).concatenate (sp s) = .ok (sp (l ++ s.tail)) := by
  rw [concatenate_eq (sp_valid hl) (sp_valid hs)]
  obtain ⟨l', a, r, rfl, rfl⟩ := continues_shape (spline_ne_nil hs) h
  have e1 : first (sp (a :: r)) = a.1 := rfl
  have e2 : last (sp (l' ++ [a])) = a.1 := by
    unfold last sp
    simp
  rw [e1, e2, sub_self, abs_zero, if_pos]
  · refine congrArg Except.ok ?_
    unfold sp
    simp only [List.tail_cons, List.map_append, List.map_cons, List.map_nil, List.dropLast_concat, sub_zero, List.append_assoc,
      List.singleton_append, PP.mk.injEq]
    refine ⟨?_, ?_⟩
    · simp
    · exact (consecutive_append _ _ _ _).symm
  · have : (0 : R) < epsilonTime := by unfold epsilonTime; norm_num
    exact mul_pos (lt_of_lt_of_le one_pos (le_max_right _ _)) this

theorem validateExtend_eq {s : Step R} {t : R} {a b : Sample R} (ha : front s = .ok a) (hb : back s = .ok b) :
    validateExtend s t = if t < a.1 ∨ t ≤ b.1 then .error .throws else .ok () := by
  have hne : s ≠ [] := by rintro rfl; cases ha
  unfold validateExtend
  rw [if_pos hne, ha, hb]
  change (do throwUnless (decide (¬ t < a.1)); throwUnless (decide (¬ t ≤ b.1))) = _
  by_cases h1 : t < a.1
  · rw [decide_eq_false (not_not.mpr h1), if_pos (Or.inl h1)]
    rfl
  · rw [decide_eq_true h1]
    by_cases h2 : t ≤ b.1
    · rw [decide_eq_false (not_not.mpr h2), if_pos (Or.inr h2)]
      rfl
    · rw [decide_eq_true h2, if_neg (not_or.mpr ⟨h1, h2⟩)]
      rfl

/-- The trajectory of samples. -/
def trajOf (l : List (Sample R)) : PP R := if l = [] then Piecewise.empty else sp l

theorem step_hermite (s : Step R) : s.hermite = splineOf s := rfl

/-- A chain of steps after the samples `l`. -/
def ChainAfter (l : List (Sample R)) (steps : List (Step R)) : Prop :=
  (l = [] ∨ SplineStep l) ∧ (∀ s ∈ steps, SplineStep s) ∧ steps.IsChain Continues ∧
    (l ≠ [] → ∀ s ∈ steps.head?, l.getLast? = s.head?)

theorem chainAfter_join {l : List (Sample R)} {s : Step R} {rest : List (Step R)} (h : ChainAfter l (s :: rest)) :
    ChainAfter (join l s) rest ∧ join l s ≠ [] ∧ SplineStep (join l s) ∧ (join l s).getLast? = s.getLast? ∧
      (trajOf l).concatenate (sp s) = .ok (trajOf (join l s)) := by
  obtain ⟨h1, h2, h3, h4⟩ := h
  have hs := h2 s (by simp)
  have hb : SplineStep (join l s) ∧ (join l s).getLast? = s.getLast? ∧ (trajOf l).concatenate (sp s) = .ok (sp (join l s)) := by
    by_cases hl : l = []
    · subst hl
      have e : join ([] : List (Sample R)) s = s := if_pos rfl
      rw [e]
      refine ⟨hs, rfl, ?_⟩
      unfold trajOf
      rw [if_pos rfl]
      unfold PP.concatenate Piecewise.empty
      rfl
    · have e : join l s = l ++ s.tail := if_neg hl
      have hl' := h1.resolve_left hl
      have hc := h4 hl s (by simp)
      rw [e]
      refine ⟨joined_spline hl' hs hc, joined_last hs, ?_⟩
      unfold trajOf
      rw [if_neg hl]
      exact concatenate_sp hl' hs hc
  have hne := spline_ne_nil hb.1
  refine ⟨⟨Or.inr hb.1, fun x hx => h2 x (by simp [hx]), h3.tail, fun _ x hx => ?_⟩, hne, hb.1, hb.2.1, ?_⟩
  · rw [hb.2.1]
    cases rest with
    | nil => simp at hx
    | cons y rest =>
      simp only [List.head?_cons, Option.mem_def, Option.some.injEq] at hx
      subst hx
      rw [List.isChain_cons_cons] at h3
      exact h3.1
  · rw [hb.2.2]
    unfold trajOf
    rw [if_neg hne]

theorem consolidateLoop_ok : ∀ (steps : List (Step R)) (l : List (Sample R)), ChainAfter l steps →
    consolidateLoop steps (trajOf l) = (trajOf (steps.foldl join l), .ok ()) ∧
      (steps ≠ [] → SplineStep (steps.foldl join l) ∧
        ∀ s ∈ steps.getLast?, (steps.foldl join l).getLast? = s.getLast?)
  | [], l, _ => ⟨rfl, fun h => absurd rfl h⟩
  | s :: rest, l, h => by
    obtain ⟨h1, -, h3, h4, h5⟩ := chainAfter_join h
    obtain ⟨ih1, ih2⟩ := consolidateLoop_ok rest (join l s) h1
    constructor
    · unfold consolidateLoop
      rw [step_hermite, splineOf_ok (h.2.1 s (by simp))]
      dsimp only
      rw [h5]
      exact ih1
    · intro _
      rw [List.foldl_cons]
      cases rest with
      | nil =>
        refine ⟨h3, fun x hx => ?_⟩
        simp only [List.getLast?_singleton, Option.mem_def, Option.some.injEq] at hx
        subst hx
        exact h4
      | cons y rest =>
        obtain ⟨k1, k2⟩ := ih2 (by simp)
        refine ⟨k1, fun x hx => k2 x ?_⟩
        rwa [List.getLast?_cons_cons] at hx

/-- What the members are after calls that respect the protocol. -/
structure Represents (o : Output R) (done pending : List (Step R)) : Prop where
  raw : o.rawSteps = pending
  steps : ∀ s ∈ done ++ pending, SplineStep s
  chain : (done ++ pending).IsChain Continues
  trajectory : o.trajectory = trajOf (done.foldl join [])
  lastStep : ∀ s ∈ done.getLast?, o.lastConsolidated = s
  times : done ≠ [] → o.startTime = first o.trajectory ∧ o.endTime = last o.trajectory

theorem chain_done {done : List (Step R)} (hs : ∀ s ∈ done, SplineStep s) (hc : done.IsChain Continues) :
    (done ≠ [] → SplineStep (done.foldl join []) ∧ ∀ s ∈ done.getLast?, (done.foldl join []).getLast? = s.getLast?) :=
  (consolidateLoop_ok done [] ⟨Or.inl rfl, hs, hc, fun h => absurd rfl h⟩).2

theorem isChain_snoc {l : List (Step R)} {s : Step R} (h : l.IsChain Continues) (hs : ∀ prev ∈ l.getLast?, Continues prev s) :
    (l ++ [s]).IsChain Continues := by
  rw [List.isChain_append]
  refine ⟨h, List.isChain_singleton _, fun x hx y hy => ?_⟩
  simp only [List.head?_cons, Option.mem_def, Option.some.injEq] at hy
  subst hy
  exact hs x hx

theorem isApprox_refl (a : R) : isApprox a a = true := by
  unfold isApprox
  rw [decide_eq_true_iff, sub_self, mul_zero]
  have : (0 : R) ≤ min (a * a) (a * a) := by
    rw [min_self]
    exact mul_self_nonneg a
  positivity

theorem ensure_continues {prev s : Step R} (hs : SplineStep s) (h : Continues prev s) :
    ensureConsistent s prev = .ok () := by
  obtain ⟨l', a, r, rfl, rfl⟩ := continues_shape (spline_ne_nil hs) h
  have e1 : back (l' ++ [a]) = .ok a := by unfold back; simp
  have e2 : front (a :: r) = .ok a := rfl
  have e3 : (0 : R) ≤ max |a.1| 1 * epsilonTime := by
    have : (0 : R) ≤ epsilonTime := by unfold epsilonTime; norm_num
    exact mul_nonneg (le_trans zero_le_one (le_max_right _ _)) this
  have e4 : ¬ |a.1 - a.1| > max |a.1| 1 * epsilonTime := by
    rw [sub_self, abs_zero]
    exact not_lt.mpr e3
  unfold ensureConsistent
  rw [e1, e2]
  change (do throwUnless (decide (¬ |a.1 - a.1| > max |a.1| 1 * epsilonTime)); throwUnless (isApprox a.2.1 a.2.1);
             throwUnless (isApprox a.2.2 a.2.2)) = _
  rw [isApprox_refl, isApprox_refl, decide_eq_true e4]
  rfl

theorem apart_increasing {ts : List R} (h : Apart ts) : ts.Pairwise (· < ·) := by
  refine List.isChain_iff_pairwise.mp (h.imp fun a b hab => ?_)
  have : (0 : R) < epsilonTime := by unfold epsilonTime; norm_num
  linarith

theorem spline_ends {s : Step R} (hs : SplineStep s) : ∃ a b, front s = .ok a ∧ back s = .ok b ∧ a.1 < b.1 := by
  match s, hs with
  | a :: b :: r, hs =>
    have hne : b :: r ≠ [] := by simp
    refine ⟨a, (b :: r).getLast hne, rfl, ?_, ?_⟩
    · unfold back
      rw [List.getLast?_cons_cons, List.getLast?_eq_some_getLast hne]
    · have := apart_increasing hs.2
      rw [List.map_cons, List.pairwise_cons] at this
      exact this.1 _ (List.mem_map.mpr ⟨_, List.getLast_mem hne, rfl⟩)

theorem update_represents {o : Output R} {done pending : List (Step R)} (h : Represents o done pending) {s : Step R}
    (hs : SplineStep s) (hc : ∀ prev ∈ (done ++ pending).getLast?, Continues prev s) :
    ∃ o', o.update s = (o', .ok ()) ∧ Represents o' done (pending ++ [s]) := by
  have hv : o.validateStep s = .ok () := by
    obtain ⟨a, b, ha, hb, hab⟩ := spline_ends hs
    unfold Output.validateStep
    rw [ha, hb]
    change (do throwUnless (decide (a.1 ≠ b.1)); _) = _
    rw [decide_eq_true (ne_of_lt hab)]
    change (if o.rawSteps ≠ [] then _ else _) = _
    by_cases hr : o.rawSteps = []
    · rw [if_neg (by simpa using hr)]
      by_cases ht : o.trajectory.polynomials = []
      · rw [if_neg (by simpa using ht)]
        rfl
      · rw [if_pos ht]
        have hp : pending = [] := by rw [← h.raw, hr]
        subst hp
        have hd : done ≠ [] := by
          rintro rfl
          apply ht
          rw [h.trajectory]
          rfl
        have hl := List.getLast?_eq_some_getLast hd
        rw [h.lastStep _ hl]
        exact ensure_continues hs (hc _ (by rw [List.append_nil]; exact hl))
    · rw [if_pos hr, h.raw]
      have hp : pending ≠ [] := by rwa [← h.raw]
      have hl := List.getLast?_eq_some_getLast hp
      have e : back pending = .ok (pending.getLast hp) := by unfold back; rw [hl]
      rw [e]
      change ensureConsistent s (pending.getLast hp) = _
      refine ensure_continues hs (hc _ ?_)
      rw [List.getLast?_append, hl]
      rfl
  refine ⟨{ o with rawSteps := o.rawSteps ++ [s] }, ?_, ?_⟩
  · unfold Output.update
    rw [hv]
  · refine ⟨by rw [← h.raw], ?_, ?_, h.trajectory, h.lastStep, h.times⟩
    · intro x hx
      rw [← List.append_assoc, List.mem_append, List.mem_singleton] at hx
      rcases hx with hx | rfl
      · exact h.steps x hx
      · exact hs
    · rw [← List.append_assoc]
      exact isChain_snoc h.chain hc

theorem rollback_represents {o : Output R} {done pending : List (Step R)} (h : Represents o done pending) (hp : pending ≠ []) :
    ∃ o', o.rollback = (o', .ok ()) ∧ Represents o' done pending.dropLast := by
  refine ⟨{ o with rawSteps := o.rawSteps.dropLast }, ?_, ?_⟩
  · unfold Output.rollback
    rw [if_neg (by rwa [h.raw])]
  · have e : done ++ pending.dropLast = (done ++ pending).dropLast := (List.dropLast_append_of_ne_nil hp).symm
    refine ⟨by rw [← h.raw], ?_, ?_, h.trajectory, h.lastStep, h.times⟩
    · intro x hx
      rw [e] at hx
      exact h.steps x (List.dropLast_subset _ hx)
    · rw [e]
      exact h.chain.dropLast

theorem consolidate_represents {o : Output R} {done pending : List (Step R)} (h : Represents o done pending) (hp : pending ≠ []) :
    ∃ o', o.consolidate = (o', .ok ()) ∧ Represents o' (done ++ pending) [] := by
  have hd := chain_done (fun s hs => h.steps s (by simp [hs])) (h.chain.left_of_append)
  have hca : ChainAfter (done.foldl join []) pending := by
    refine ⟨?_, fun s hs => h.steps s (by simp [hs]), h.chain.right_of_append, ?_⟩
    · by_cases hn : done = []
      · subst hn; exact Or.inl rfl
      · exact Or.inr (hd hn).1
    · intro hne s hs
      have hn : done ≠ [] := by rintro rfl; exact hne rfl
      have hl := List.getLast?_eq_some_getLast hn
      rw [(hd hn).2 _ hl]
      have := (List.isChain_append.mp h.chain).2.2
      exact this _ hl _ hs
  obtain ⟨hl1, hl2⟩ := consolidateLoop_ok pending _ hca
  obtain ⟨hsp, -⟩ := hl2 hp
  rw [← List.foldl_append] at hl1 hsp
  have hne := spline_ne_nil hsp
  have ht : trajOf ((done ++ pending).foldl join []) = sp ((done ++ pending).foldl join []) := if_neg hne
  have hb := List.getLast?_eq_some_getLast hp
  refine ⟨⟨first (sp ((done ++ pending).foldl join [])), last (sp ((done ++ pending).foldl join [])), pending.getLast hp, [],
    sp ((done ++ pending).foldl join [])⟩, ?_, ?_⟩
  · unfold Output.consolidate
    rw [if_neg (by rwa [h.raw]), h.raw, h.trajectory, hl1]
    dsimp only
    have e : back pending = .ok (pending.getLast hp) := by unfold back; rw [hb]
    rw [ht, (sp_valid hsp).startTime, (sp_valid hsp).endTime, e]
  · refine ⟨rfl, by simpa using h.steps, by simpa using h.chain, ht.symm, ?_, fun _ => ⟨rfl, rfl⟩⟩
    intro s hs
    rw [List.getLast?_append, hb] at hs
    exact Option.some.inj hs

theorem run_represents : ∀ (ops : List (Op R)) (o : Output R) (done pending : List (Step R)), Represents o done pending →
    ProperFrom (done, pending) ops →
    ∃ o', o.run ops = .ok o' ∧ Represents o' (keptFrom (done, pending) ops).1 (keptFrom (done, pending) ops).2
  | [], o, done, pending, h, _ => ⟨o, rfl, h⟩
  | .update s :: rest, o, done, pending, h, hp => by
    obtain ⟨h1, h2, h3⟩ := hp
    obtain ⟨o', e, h'⟩ := update_represents h h1 h2
    obtain ⟨o'', e', h''⟩ := run_represents rest o' done (pending ++ [s]) h' h3
    refine ⟨o'', ?_, h''⟩
    unfold Output.run Output.exec
    dsimp only
    rw [e]
    exact e'
  | .rollback :: rest, o, done, pending, h, hp => by
    obtain ⟨h1, h3⟩ := hp
    obtain ⟨o', e, h'⟩ := rollback_represents h h1
    obtain ⟨o'', e', h''⟩ := run_represents rest o' done pending.dropLast h' h3
    refine ⟨o'', ?_, h''⟩
    unfold Output.run Output.exec
    dsimp only
    rw [e]
    exact e'
  | .consolidate :: rest, o, done, pending, h, hp => by
    obtain ⟨h1, h3⟩ := hp
    obtain ⟨o', e, h'⟩ := consolidate_represents h h1
    obtain ⟨o'', e', h''⟩ := run_represents rest o' (done ++ pending) [] h' h3
    refine ⟨o'', ?_, h''⟩
    unfold Output.run Output.exec
    dsimp only
    rw [e]
    exact e'

theorem new_represents : Represents (Output.new : Output R) [] [] :=
  ⟨rfl, by simp, by simp, rfl, by simp, fun h => absurd rfl h⟩

end Maliput.DenseOut
