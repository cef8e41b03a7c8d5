import Verif.Lemmas.DenseOutput
import Verif.Props.PiecewisePolynomial

set_option autoImplicit false
set_option linter.unusedSectionVars false

/-! C135: the stepwise dense output of an integrator. -/
namespace Maliput.Props
open Maliput Piecewise DenseOut Piecewise.Spec Maliput.Spec

variable {R : Type} [Field R] [LinearOrder R] [IsStrictOrderedRing R]

/-- C135: a step is extended exactly by samples that are later than all of its samples. -/
theorem step_extend_iff (s : Step R) (hs : ReachableStep s) (x : Sample R) :
    (∃ s', s.extend x = .ok s') ↔ ∀ y ∈ s, y.1 < x.1 := by
  have key : ∀ s : Step R, s ≠ [] → (s.map fun y => y.1).Pairwise (· < ·) →
      (s.extend x = .ok (s ++ [x]) ∧ ∀ y ∈ s, y.1 < x.1) ∨ (s.extend x = .error .throws ∧ ¬ ∀ y ∈ s, y.1 < x.1) := by
    intro s hne hp
    obtain ⟨a, r, rfl⟩ := List.exists_cons_of_ne_nil hne
    have hl := List.getLast?_eq_some_getLast hne
    have eb : back (a :: r) = .ok ((a :: r).getLast hne) := by unfold back; rw [hl]
    have hmax : ∀ y ∈ a :: r, y.1 ≤ ((a :: r).getLast hne).1 := by
      intro y hy
      rw [← List.dropLast_append_getLast hne] at hy hp
      rw [List.map_append, List.pairwise_append] at hp
      rcases List.mem_append.mp hy with h | h
      · exact (hp.2.2 _ (List.mem_map.mpr ⟨y, h, rfl⟩) _ (by simp)).le
      · rw [List.mem_singleton.mp h]
    have hval := validateExtend_eq (t := x.1) (show front (a :: r) = .ok a from rfl) eb
    unfold Step.extend
    rw [hval]
    by_cases h1 : x.1 < a.1 ∨ x.1 ≤ ((a :: r).getLast hne).1
    · right
      rw [if_pos h1]
      refine ⟨rfl, fun h => ?_⟩
      rcases h1 with h1 | h1
      · exact absurd (h a (by simp)) (not_lt.mpr h1.le)
      · exact absurd (h _ (List.getLast_mem hne)) (not_lt.mpr h1)
    · left
      rw [if_neg h1]
      exact ⟨rfl, fun y hy => lt_of_le_of_lt (hmax y hy) (not_le.mp fun k => h1 (Or.inr k))⟩
  have inv : s ≠ [] ∧ (s.map fun y => y.1).Pairwise (· < ·) := by
    clear key
    induction hs with
    | make h =>
      cases h
      exact ⟨by simp, by simp⟩
    | @extend s x s' _ h ih =>
      unfold Step.extend at h
      rw [bind_ok] at h
      obtain ⟨_, h1, h2⟩ := h
      cases h2
      refine ⟨by simp, ?_⟩
      rw [List.map_append, List.pairwise_append]
      refine ⟨ih.2, by simp, ?_⟩
      intro a ha b hb
      simp only [List.map_cons, List.map_nil, List.mem_singleton] at hb
      subst hb
      obtain ⟨y, hy, rfl⟩ := List.mem_map.mp ha
      have hne := ih.1
      have hl := List.getLast?_eq_some_getLast hne
      have eb : back s = .ok (s.getLast hne) := by unfold back; rw [hl]
      have ef : front s = .ok (s.head hne) := by unfold front; rw [List.head?_eq_some_head hne]
      rw [validateExtend_eq ef eb] at h1
      by_cases hk : x.1 < (s.head hne).1 ∨ x.1 ≤ (s.getLast hne).1
      · rw [if_pos hk] at h1
        cases h1
      replace h1 := fun k => hk (Or.inr k)
      refine lt_of_le_of_lt ?_ (not_le.mp h1)
      have hp := ih.2
      rw [← List.dropLast_append_getLast hne] at hy hp
      rw [List.map_append, List.pairwise_append] at hp
      rcases List.mem_append.mp hy with h | h
      · exact (hp.2.2 _ (List.mem_map.mpr ⟨y, h, rfl⟩) _ (by simp)).le
      · rw [List.mem_singleton.mp h]
  rcases key s inv.1 inv.2 with ⟨h1, h2⟩ | ⟨h1, h2⟩
  · exact ⟨fun _ => h2, fun _ => ⟨_, h1⟩⟩
  · refine ⟨?_, fun h => absurd h h2⟩
    rintro ⟨s', h⟩
    rw [h1] at h
    cases h

/-- The step that the next one has to continue. -/
def previousStep (o : Output R) : Option (Step R) :=
  if o.rawSteps ≠ [] then o.rawSteps.getLast? else if o.isEmpty then none else some o.lastConsolidated

/-- C135: an update is accepted exactly if the step has a length and starts where the previous one ended: at the same time up to
the resolution of `double`, and with the same state and derivative up to a relative error. -/
theorem update_accepts_iff (o : Output R) (s : Step R) (a b : Sample R) (ha : s.head? = some a) (hb : s.getLast? = some b)
    (hprev : ∀ p ∈ previousStep o, p ≠ []) :
    (o.update s).2 = .ok () ↔ a.1 ≠ b.1 ∧ ∀ p ∈ previousStep o, ∀ e ∈ p.getLast?,
      |e.1 - a.1| ≤ max |e.1| 1 * epsilonTime ∧ isApprox e.2.1 a.2.1 = true ∧ isApprox e.2.2 a.2.2 = true := by
  have hens : ∀ p : Step R, p ≠ [] → (ensureConsistent s p = .ok () ↔ ∀ e ∈ p.getLast?,
      |e.1 - a.1| ≤ max |e.1| 1 * epsilonTime ∧ isApprox e.2.1 a.2.1 = true ∧ isApprox e.2.2 a.2.2 = true) := by
    intro p hp
    have hl := List.getLast?_eq_some_getLast hp
    have e1 : back p = .ok (p.getLast hp) := by unfold back; rw [hl]
    have e2 : front s = .ok a := by unfold front; rw [ha]
    unfold ensureConsistent
    rw [e1, e2, hl]
    generalize p.getLast hp = e
    change (do throwUnless (decide (¬ |e.1 - a.1| > max |e.1| 1 * epsilonTime)); throwUnless (isApprox e.2.1 a.2.1);
               throwUnless (isApprox e.2.2 a.2.2)) = _ ↔ _
    simp only [Option.mem_def, Option.some.injEq, forall_eq']
    by_cases h1 : |e.1 - a.1| > max |e.1| 1 * epsilonTime
    · rw [decide_eq_false (not_not.mpr h1)]
      exact ⟨nofun, fun h => absurd h.1 (not_le.mpr h1)⟩
    · rw [decide_eq_true h1]
      cases isApprox e.2.1 a.2.1 with
      | false => exact ⟨nofun, fun h => by simp at h⟩
      | true =>
        cases isApprox e.2.2 a.2.2 with
        | false => exact ⟨nofun, fun h => by simp at h⟩
        | true => exact ⟨fun _ => ⟨not_lt.mp h1, rfl, rfl⟩, fun _ => rfl⟩
  have hv : (o.update s).2 = .ok () ↔ o.validateStep s = .ok () := by
    unfold Output.update
    cases o.validateStep s with
    | error e => exact Iff.rfl
    | ok u => exact Iff.rfl
  rw [hv]
  have e1 : front s = .ok a := by unfold front; rw [ha]
  have e2 : back s = .ok b := by unfold back; rw [hb]
  unfold Output.validateStep
  rw [e1, e2]
  change (do throwUnless (decide (a.1 ≠ b.1)); (if o.rawSteps ≠ [] then _ else _)) = _ ↔ _
  by_cases hab : a.1 ≠ b.1
  · rw [decide_eq_true hab]
    change (if o.rawSteps ≠ [] then _ else _) = _ ↔ _
    unfold previousStep at hprev ⊢
    by_cases hr : o.rawSteps ≠ []
    · rw [if_pos hr]
      rw [if_pos hr] at hprev ⊢
      have hl := List.getLast?_eq_some_getLast hr
      have eb : back o.rawSteps = .ok (o.rawSteps.getLast hr) := by unfold back; rw [hl]
      rw [eb]
      change ensureConsistent s (o.rawSteps.getLast hr) = _ ↔ _
      rw [hens _ (hprev _ hl), hl]
      simp [hab]
    · rw [if_neg hr]
      rw [if_neg hr] at hprev ⊢
      by_cases ht : o.trajectory.polynomials = []
      · rw [if_neg (by simpa using ht)]
        have : o.isEmpty = true := decide_eq_true ht
        rw [if_pos this]
        simp [hab, pure, Except.pure]
      · rw [if_pos ht]
        have : o.isEmpty = false := decide_eq_false ht
        rw [if_neg (by simp [this])] at hprev ⊢
        rw [hens _ (hprev _ rfl)]
        simp [hab]
  · rw [decide_eq_false hab]
    exact ⟨nofun, fun h => absurd h.1 hab⟩

/-- C135: rolling back undoes the last update, and fails exactly if there is none. -/
theorem rollback_undoes_update (o o' : Output R) (s : Step R) (h : o.update s = (o', .ok ())) :
    o'.rollback = (o, .ok ()) := by
  unfold Output.update at h
  split at h
  · cases h
  · cases h
    unfold Output.rollback
    dsimp only
    rw [if_neg (by simp), List.dropLast_concat]

/-- C135: without updates there is nothing to roll back or to consolidate. -/
theorem no_updates_throw (o : Output R) (h : o.rawSteps = []) :
    o.rollback = (o, .error .throws) ∧ o.consolidate = (o, .error .throws) := by
  unfold Output.rollback Output.consolidate
  rw [if_pos h, if_pos h]
  exact ⟨rfl, rfl⟩

/-- C135: updates, whether accepted or not, and rollbacks change no query. -/
theorem queries_until_consolidated (o : Output R) (op : Op R) (h : op ≠ .consolidate) (t : R) (n : Int) :
    (o.exec op).1.isEmpty = o.isEmpty ∧ (o.exec op).1.getStartTime = o.getStartTime ∧ (o.exec op).1.getEndTime = o.getEndTime ∧
    (o.exec op).1.evaluate t = o.evaluate t ∧ (o.exec op).1.evaluateNth t n = o.evaluateNth t n := by
  cases op with
  | consolidate => exact absurd rfl h
  | rollback =>
    unfold Output.exec Output.rollback
    dsimp only
    split <;> exact ⟨rfl, rfl, rfl, rfl, rfl⟩
  | update s =>
    unfold Output.exec Output.update
    dsimp only
    split <;> exact ⟨rfl, rfl, rfl, rfl, rfl⟩

/-- C135: calls that respect the protocol all succeed, and then the output is the cubic spline through the samples of the steps that
were consolidated: its domain is theirs, its values at their times are their states, and outside of the domain it throws.
Partial: the library accepts more updates than those that continue the previous step exactly. -/
theorem dense_output_is_spline_partial (ops : List (Op R)) (h : ProperFrom ([], []) ops) :
    ∃ o, (Output.new : Output R).run ops = .ok o ∧ o.rawSteps = (keptFrom ([], []) ops).2 ∧
      (o.isEmpty = true ↔ (keptFrom ([], []) ops).1 = []) ∧
      ∀ x z, (merged (keptFrom ([], []) ops).1).head? = some x → (merged (keptFrom ([], []) ops).1).getLast? = some z →
        o.getStartTime = .ok x.1 ∧ o.getEndTime = .ok z.1 ∧
        (∃ p, splineOf (merged (keptFrom ([], []) ops).1) = .ok p ∧
          ∀ t, o.evaluate t = if x.1 ≤ t ∧ t ≤ z.1 then p.evalDerivative t 0 else .error .throws) ∧
        (∀ y ∈ merged (keptFrom ([], []) ops).1, o.evaluate y.1 = .ok y.2.1) := by
  obtain ⟨o, ho, hr⟩ := run_represents ops Output.new [] [] new_represents h
  generalize hd : (keptFrom ([], []) ops).1 = done at hr ⊢
  generalize hp : (keptFrom ([], []) ops).2 = pending at hr ⊢
  have hst : ∀ s ∈ done, SplineStep s := fun s hs => hr.steps s (by simp [hs])
  have hm := merged_eq done fun s hs => spline_ne_nil (hst s hs)
  have hcd := chain_done hst hr.chain.left_of_append
  refine ⟨o, ho, hr.raw, ?_, ?_⟩
  · unfold Output.isEmpty
    rw [decide_eq_true_iff, hr.trajectory]
    constructor
    · intro he
      by_contra hne
      have hs := (hcd hne).1
      unfold trajOf at he
      rw [if_neg (spline_ne_nil hs)] at he
      have := (sp_valid hs).segments
      rw [he] at this
      simp at this
    · rintro rfl
      rfl
  · intro x z hx hz
    have hne : done ≠ [] := by rintro rfl; simp [merged] at hx
    obtain ⟨hs, -⟩ := hcd hne
    rw [← hm] at hs
    have htr : o.trajectory = sp (merged done) := by
      rw [hr.trajectory, ← hm]
      exact if_neg (spline_ne_nil hs)
    have hv := sp_valid hs
    have hemp : o.isEmpty = false := by
      unfold Output.isEmpty
      rw [htr, decide_eq_false_iff_not]
      intro he
      have := hv.segments
      rw [he] at this
      simp at this
    obtain ⟨t1, t2⟩ := hr.times hne
    have hf : o.startTime = x.1 := by
      rw [t1, htr]
      unfold first sp
      rw [List.headD_eq_head?_getD, List.head?_map, hx]
      rfl
    have hl : o.endTime = z.1 := by
      rw [t2, htr]
      unfold last sp
      rw [List.getLastD_eq_getLast?, List.getLast?_map, hz]
      rfl
    have hev : ∀ t, o.evaluate t = if x.1 ≤ t ∧ t ≤ z.1 then (sp (merged done)).evalDerivative t 0 else .error .throws := by
      intro t
      unfold Output.evaluate
      rw [hemp, hf, hl, htr]
      by_cases ht : x.1 ≤ t ∧ t ≤ z.1
      · rw [if_pos ht, decide_eq_true (show ¬ (t < x.1 ∨ t > z.1) from fun h => h.elim (not_lt.mpr ht.1) (not_lt.mpr ht.2))]
        rfl
      · rw [if_neg ht, decide_eq_false (show ¬ ¬ (t < x.1 ∨ t > z.1) from fun h => ht ⟨not_lt.mp fun k => h (Or.inl k),
          not_lt.mp fun k => h (Or.inr k)⟩)]
        rfl
    refine ⟨?_, ?_, ⟨sp (merged done), splineOf_ok hs, hev⟩, ?_⟩
    · unfold Output.getStartTime
      rw [hemp, hf]
      rfl
    · unfold Output.getEndTime
      rw [hemp, hl]
      rfl
    · intro y hy
      obtain ⟨p, hp1, -, -, hp4, -⟩ := cubic_hermite ((merged done).map fun x => x.1) ((merged done).map fun x => x.2.1)
        ((merged done).map fun x => x.2.2) (by simp) (by simp) (by simpa using hs.1) hs.2
      have hpe : p = sp (merged done) := by
        have := splineOf_ok hs
        unfold splineOf at this
        rw [hp1] at this
        exact Except.ok.inj this
      subst hpe
      obtain ⟨i, hi⟩ := List.mem_iff_getElem?.mp hy
      have hval := (hp4 i y.1 y.2.1 y.2.2 (by simp [hi]) (by simp [hi]) (by simp [hi])).1
      rw [hev, if_pos, hval]
      have hinc := apart_increasing hs.2
      constructor
      · cases hmd : merged done with
        | nil => rw [hmd] at hx; simp at hx
        | cons a r =>
          rw [hmd] at hx hy hinc
          cases hx
          rw [List.map_cons, List.pairwise_cons] at hinc
          rcases List.mem_cons.mp hy with rfl | hy
          · exact le_refl _
          · exact (hinc.1 _ (List.mem_map.mpr ⟨y, hy, rfl⟩)).le
      · rw [snoc_of_last hz] at hy hinc
        rw [List.map_append, List.pairwise_append] at hinc
        rcases List.mem_append.mp hy with hy | hy
        · exact (hinc.2.2 _ (List.mem_map.mpr ⟨y, hy, rfl⟩) _ (by simp)).le
        · rw [List.mem_singleton.mp hy]

/-! ### What goes wrong -/

/-- A step from 0 to 1 along the line `y = t`. -/
def exStep1 : Step ℚ := [(0, 0, 1), (1, 1, 1)]
/-- A step along the same line that starts one unit of the last place after 1. -/
def exStep2 : Step ℚ := [(1 + 1 / 2 ^ 52, 1 + 1 / 2 ^ 52, 1), (2, 2, 1)]

/-- C135: two updates that are accepted and cannot be consolidated.  The exception leaves the first step consolidated, but the
output answers no query about it: it is not empty, and its domain is still that of the empty output. -/
theorem accepted_updates_not_consolidated :
    let o1 := (Output.new : Output ℚ).update exStep1
    let o2 := o1.1.update exStep2
    let o3 := o2.1.consolidate
    o1.2 = .ok () ∧ o2.2 = .ok () ∧ o3.2 = .error .throws ∧ o3.1.isEmpty = false ∧ o3.1.rawSteps = [exStep1, exStep2] ∧
      o3.1.getStartTime = .ok 0 ∧ o3.1.getEndTime = .ok 0 ∧ o3.1.evaluate (1 / 2) = .error .throws := by
  refine ⟨?_, ?_, ?_, ?_, ?_, ?_, ?_, ?_⟩ <;> decide +kernel

/-- C135: after that, rolling back both updates leaves an output whose next update is undefined behaviour. -/
theorem update_after_failure_undefined :
    (((Output.new : Output ℚ).runAll [.update exStep1, .update exStep2, .consolidate, .rollback, .rollback]).update exStep1).2 =
      .error .ub := by
  decide +kernel

/-- C135: and so is every update of an output that was made of a trajectory. -/
theorem update_of_trajectory_undefined (p : PP R) (o : Output R) (hp : Valid p) (h : Output.ofTrajectory p = .ok o) (s : Step R)
    (a b : Sample R) (ha : s.head? = some a) (hb : s.getLast? = some b) (hab : a.1 ≠ b.1) :
    (o.update s).2 = .error .ub := by
  unfold Output.ofTrajectory at h
  rw [hp.startTime, hp.endTime] at h
  cases h
  have e1 : front s = .ok a := by unfold front; rw [ha]
  have e2 : back s = .ok b := by unfold back; rw [hb]
  have ht : p.polynomials ≠ [] := by
    intro he
    have := hp.segments
    rw [he] at this
    simp at this
  have : (⟨first p, last p, [], [], p⟩ : Output R).validateStep s = .error .ub := by
    unfold Output.validateStep
    rw [e1, e2]
    change (do throwUnless (decide (a.1 ≠ b.1)); (if p.polynomials ≠ [] then ensureConsistent s [] else pure ())) = _
    rw [decide_eq_true hab, if_pos ht]
    rfl
  unfold Output.update
  rw [this]

/-! ### The hypotheses are met -/

/-- Two steps along `y = t²`. -/
def exSquare1 : Step ℚ := [(0, 0, 0), (1, 1, 2), (2, 4, 4)]
def exSquare2 : Step ℚ := [(2, 4, 4), (3, 9, 6)]
def exSquareOps : List (Op ℚ) := [.update exSquare1, .update exSquare2, .rollback, .consolidate, .update exSquare2, .consolidate]

example : ProperFrom ([], []) exSquareOps := by
  have h1 : SplineStep exSquare1 := ⟨by decide, by unfold Apart exSquare1 epsilonTime; norm_num⟩
  have h2 : SplineStep exSquare2 := ⟨by decide, by unfold Apart exSquare2 epsilonTime; norm_num⟩
  refine ⟨h1, by simp, h2, ?_, by simp, by simp, h2, ?_, by simp, trivial⟩ <;>
  · simp [Continues, exSquare1, exSquare2]

example : keptFrom ([], []) exSquareOps = ([exSquare1, exSquare2], []) := rfl
example : merged [exSquare1, exSquare2] = [(0, 0, 0), (1, 1, 2), (2, 4, 4), (3, 9, 6)] := rfl
/-- In between it is the parabola too. -/
example : ((Output.new.run exSquareOps).toOption.map fun o => (o.evaluate (1 / 2)).toOption) = some (some (1 / 4)) := by
  decide +kernel
example : ((Output.new.run exSquareOps).toOption.map fun o => (o.evaluate (5 / 2)).toOption) = some (some (25 / 4)) := by
  decide +kernel
/-- A step that can be extended, and one that cannot. -/
example : ReachableStep exStep1 := .extend (.make (x := (0, 0, 1)) (s := [(0, 0, 1)]) rfl) (x := (1, 1, 1)) rfl
/-- A trajectory for an output. -/
example : Valid (sp exSquare1) ∧ ∃ o, Output.ofTrajectory (sp exSquare1) = .ok o := by
  have hv := sp_valid (l := exSquare1) ⟨by decide, by unfold Apart exSquare1 epsilonTime; norm_num⟩
  exact ⟨hv, _, by unfold Output.ofTrajectory; rw [hv.startTime, hv.endTime]; rfl⟩

end Maliput.Props
