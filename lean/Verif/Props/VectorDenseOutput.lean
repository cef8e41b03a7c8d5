import Verif.Lemmas.VectorDenseOutput
import Verif.Props.DenseOutput

set_option autoImplicit false
set_option linter.unusedSectionVars false

/-! C155: the stepwise dense output of states with any number of components. -/
namespace Maliput.Props
open Maliput Piecewise DenseOut VectorDenseOut Piecewise.Spec Maliput.Spec

variable {R : Type} [Field R] [LinearOrder R] [IsStrictOrderedRing R] {n : Nat}

local instance vectorOutputInhabited : Inhabited R := ⟨0⟩

/-- Two steps with two components each, the second one continues the first. -/
def planarSteps : List (VStep ℚ) :=
  [[(0, ⟨2, 1, [1, 5]⟩, ⟨2, 1, [0, 1]⟩), (1, ⟨2, 1, [2, 4]⟩, ⟨2, 1, [1, -1]⟩)],
   [(1, ⟨2, 1, [2, 4]⟩, ⟨2, 1, [1, -1]⟩), (3, ⟨2, 1, [7, 0]⟩, ⟨2, 1, [3, 2]⟩)]]

/-- Calls with these steps, one of which is rolled back and given again. -/
def planarOps : List (VOp ℚ) :=
  planarSteps.map VOp.update ++ [.rollback] ++ (planarSteps.drop 1).map VOp.update ++ [.consolidate]

/-- C155: after calls that respect the protocol, the output of states with `n` components is made of the outputs of the components:
it is empty, starts and ends when each of them does, has `n` elements, evaluates to the vector of their values, and each element
can be asked for alone.  Missing: steps that continue the previous one only up to rounding. -/
theorem vector_dense_output_partial (hn : 0 < n) (ops : List (VOp R)) (hcol : ∀ op ∈ ops, ColumnOp n op)
    (hp : ∀ k < n, ProperFrom ([], []) (ops.map (opOf k))) :
    ∃ (o : VOutput R) (each : Nat → Output R), VOutput.new.run ops = .ok o ∧
      (∀ k < n, Output.new.run (ops.map (opOf k)) = .ok (each k)) ∧
      (∀ k < n, o.isEmpty = (each k).isEmpty ∧ o.getStartTime = (each k).getStartTime ∧ o.getEndTime = (each k).getEndTime) ∧
      (o.isEmpty = false → o.size = .ok n) ∧
      (∀ t xs, o.evaluate t = .ok xs ↔ xs.length = n ∧ ∀ k < n, (each k).evaluate t = .ok (xs.getD k 0)) ∧
      (∀ t, ∀ k < n, o.evaluateNth t k = (each k).evaluateNth t 0) ∧
      ∀ t (k : Int), o.isEmpty = false → k < 0 ∨ n ≤ k → o.evaluateNth t k = .error .throws := by
  obtain ⟨o, done, pending, e, ht, he⟩ := run_tracks hn ops VOutput.new [] [] new_tracks hcol hp
  have hempty : ∀ k, (o.component k).isEmpty = o.isEmpty := by
    intro k
    simp [Output.isEmpty, VOutput.isEmpty, VOutput.component, MP.ent]
  have hrows : o.isEmpty = false → o.trajectory.rows = .ok n := by
    intro h
    exact shaped_rows_ok ht.shaped (by simpa [VOutput.isEmpty] using h)
  have hNth : ∀ t, ∀ k < n, o.evaluateNth t k = (o.component k).evaluateNth t 0 := by
    intro t k hk
    unfold VOutput.evaluateNth Output.evaluateNth
    rw [hempty]
    cases hm : o.isEmpty with
    | true => rfl
    | false =>
      have h1 : ¬((k : Int) < 0 ∨ (n : Int) ≤ k) := by omega
      have h2 : ¬((0 : Int) < 0 ∨ (1 : Int) ≤ 0) := by omega
      have h3 := matrix_trajectory_scalarValue ht.shaped t hk one_pos
      rw [entry_eq ht.shaped hk one_pos] at h3
      simp only [hrows hm, bind, Except.bind, throwUnless_pos h1, throwUnless_pos h2, Int.toNat_natCast, h3]
      rfl
  refine ⟨o, fun k => o.component k, e, he, fun k _ => ?_, fun h => ?_, fun t xs => ?_, hNth, fun t k h hk => ?_⟩
  · refine ⟨(hempty k).symm, ?_, ?_⟩
    · unfold VOutput.getStartTime Output.getStartTime
      rw [hempty]
      rfl
    · unfold VOutput.getEndTime Output.getEndTime
      rw [hempty]
      rfl
  · unfold VOutput.size
    rw [h, hrows h]
    rfl
  · have hcomp : ∀ k, (o.component k).evaluate t =
        (do throwUnless (!o.isEmpty)
            throwUnless (¬ (t < o.startTime ∨ t > o.endTime))
            (o.trajectory.ent k 0).evalDerivative t 0) := by
      intro k
      unfold Output.evaluate
      rw [hempty]
      rfl
    constructor
    · intro h
      unfold VOutput.evaluate at h
      rw [bind_ok] at h
      obtain ⟨u, h1, h⟩ := h
      rw [bind_ok] at h
      obtain ⟨v, h2, h⟩ := h
      rw [bind_ok] at h
      obtain ⟨m, hm, h⟩ := h
      obtain ⟨hs, hv⟩ := evalDerivative_ent ht.shaped t 0 hm
      have hx : (List.range m.rows).mapM (fun r => m.get r 0) = .ok ((List.range m.rows).map fun r => m.data.getD r 0) :=
        mapM_eq_map fun r hr => get_component hs (by rw [← hs.1]; exact List.mem_range.1 hr)
      rw [hx] at h
      obtain rfl := Except.ok.inj h
      refine ⟨by simp [hs.1], fun k hk => ?_⟩
      rw [hcomp, h1, h2]
      change (o.trajectory.ent k 0).evalDerivative t 0 = _
      rw [hv k 0 hk one_pos, get_component hs hk]
      simp [hs.1, hk]
    · rintro ⟨hl, hx⟩
      have h0 := hx 0 hn
      rw [hcomp, bind_ok] at h0
      obtain ⟨u, h1, h0⟩ := h0
      rw [bind_ok] at h0
      obtain ⟨v, h2, h0⟩ := h0
      have hx' : ∀ k < n, (o.trajectory.ent k 0).evalDerivative t 0 = .ok (xs.getD k 0) := by
        intro k hk
        have := hx k hk
        rw [hcomp, h1, h2] at this
        exact this
      have hne : o.trajectory.matrices ≠ [] := by
        have := throwUnless_ok.1 h1
        simpa [VOutput.isEmpty] using this
      obtain ⟨m, hm⟩ := evalDerivative_total ht.shaped hn one_pos t 0 hne fun r c hr hc => by
        obtain rfl : c = 0 := by omega
        exact ⟨_, hx' r hr⟩
      obtain ⟨hs, hv⟩ := evalDerivative_ent ht.shaped t 0 hm
      unfold VOutput.evaluate
      rw [h1, h2, hm]
      change (List.range m.rows).mapM (fun r => m.get r 0) = _
      have : (List.range m.rows).mapM (fun r => m.get r 0) = .ok ((List.range m.rows).map fun r => xs.getD r 0) :=
        mapM_eq_map fun r hr => by
          have hr' : r < n := by rw [← hs.1]; exact List.mem_range.1 hr
          rw [← hv r 0 hr' one_pos, hx' r hr']
      rw [this, hs.1]
      congr 1
      refine List.ext_getElem (by simp [hl]) fun i hi hj => ?_
      simp [hj]
  · unfold VOutput.evaluateNth
    have h1 : ¬¬(k < 0 ∨ (n : Int) ≤ k) := not_not.2 hk
    simp only [h, hrows h, bind, Except.bind, throwUnless_neg h1]
    rfl

example : (∀ op ∈ planarOps, ColumnOp 2 op) ∧ ∀ k < 2, ProperFrom ([], []) (planarOps.map (opOf k)) := by
  refine ⟨?_, ?_⟩
  · have : ∀ s ∈ planarSteps, ColumnStep 2 s := by
      unfold ColumnStep ColumnSample Shape
      decide +kernel
    intro op hop
    have : op = .rollback ∨ op = .consolidate ∨ ∃ s ∈ planarSteps, op = .update s := by
      simp only [planarOps, List.mem_append, List.mem_map, List.mem_singleton] at hop
      rcases hop with ((⟨s, hs, rfl⟩ | rfl) | ⟨s, hs, rfl⟩) | rfl
      · exact Or.inr (Or.inr ⟨s, hs, rfl⟩)
      · exact Or.inl rfl
      · exact Or.inr (Or.inr ⟨s, List.mem_of_mem_drop hs, rfl⟩)
      · exact Or.inr (Or.inl rfl)
    rcases this with rfl | rfl | ⟨s, hs, rfl⟩
    · trivial
    · trivial
    · exact this s hs
  · intro k hk
    have : k = 0 ∨ k = 1 := by omega
    rcases this with rfl | rfl <;>
      simp [planarOps, planarSteps, opOf, stepOf, sampleOf, ProperFrom, SplineStep, Apart, Continues, epsilonTime] <;> norm_num

example : ((VOutput.new.run planarOps).bind (·.evaluate 1)) = .ok [2, 4] := by decide +kernel

/-- C155: after calls that respect the protocol, the output is empty exactly if no step was consolidated.  Otherwise it starts with the
first sample of the consolidated steps, ends with the last one, throws at all other times, and takes their states at their times.
Missing: as above. -/
theorem vector_dense_output_samples_partial (hn : 0 < n) (ops : List (VOp R)) (hcol : ∀ op ∈ ops, ColumnOp n op)
    (hp : ∀ k < n, ProperFrom ([], []) (ops.map (opOf k))) :
    ∃ o : VOutput R, VOutput.new.run ops = .ok o ∧ (o.isEmpty = true ↔ (keptVFrom ([], []) ops).1 = []) ∧
      ∀ x z, (mergedV (keptVFrom ([], []) ops).1).head? = some x → (mergedV (keptVFrom ([], []) ops).1).getLast? = some z →
        o.getStartTime = .ok x.1 ∧ o.getEndTime = .ok z.1 ∧ (∀ t, ¬(x.1 ≤ t ∧ t ≤ z.1) → o.evaluate t = .error .throws) ∧
        ∀ y ∈ mergedV (keptVFrom ([], []) ops).1, o.evaluate y.1 = .ok y.2.1.data := by
  obtain ⟨o, each, e, he, hq, -, hev, -⟩ := vector_dense_output_partial hn ops hcol hp
  have hk : ∀ k, keptFrom ([], []) (ops.map (opOf k)) =
      ((keptVFrom ([], []) ops).1.map (stepOf k), (keptVFrom ([], []) ops).2.map (stepOf k)) := fun k => kept_component k ops [] []
  have hs : ∀ k < n, (each k).isEmpty = true ↔ (keptVFrom ([], []) ops).1.map (stepOf k) = [] := by
    intro k hk'
    obtain ⟨o', h1, -, h2, -⟩ := dense_output_is_spline_partial _ (hp k hk')
    rw [he k hk'] at h1
    obtain rfl := Except.ok.inj h1
    rw [h2, hk]
  refine ⟨o, e, by rw [(hq 0 hn).1, hs 0 hn, List.map_eq_nil_iff], fun x z hx hz => ?_⟩
  have hd : ∀ k < n, (each k).getStartTime = .ok x.1 ∧ (each k).getEndTime = .ok z.1 ∧
      ∀ y ∈ mergedV (keptVFrom ([], []) ops).1, (each k).evaluate y.1 = .ok (y.2.1.data.getD k 0) := by
    intro k hk'
    obtain ⟨o', h1, -, -, h2⟩ := dense_output_is_spline_partial _ (hp k hk')
    rw [he k hk'] at h1
    obtain rfl := Except.ok.inj h1
    rw [hk] at h2
    dsimp only at h2
    rw [merged_component] at h2
    obtain ⟨h3, h4, -, h5⟩ := h2 (sampleOf k x) (sampleOf k z) (by rw [List.head?_map, hx]; rfl) (by rw [List.getLast?_map, hz]; rfl)
    exact ⟨h3, h4, fun y hy => h5 (sampleOf k y) (List.mem_map_of_mem hy)⟩
  have hst : o.getStartTime = .ok x.1 := by rw [(hq 0 hn).2.1, (hd 0 hn).1]
  have hen : o.getEndTime = .ok z.1 := by rw [(hq 0 hn).2.2, (hd 0 hn).2.1]
  refine ⟨hst, hen, fun t ht => ?_, fun y hy => ?_⟩
  · unfold VOutput.getStartTime at hst
    unfold VOutput.getEndTime at hen
    simp only [bind_ok, pure_ok] at hst hen
    obtain ⟨_, h1, hst⟩ := hst
    obtain ⟨_, -, hen⟩ := hen
    unfold VOutput.evaluate
    rw [h1]
    have : ¬¬(t < o.startTime ∨ t > o.endTime) := by
      rw [hst, hen, not_not]
      by_contra hc
      rw [not_or, not_lt, gt_iff_lt, not_lt] at hc
      exact ht hc
    change (do throwUnless (decide (¬ (t < o.startTime ∨ t > o.endTime))); _) = _
    rw [throwUnless_neg this]
    rfl
  · rw [hev]
    obtain ⟨s, hs', hys⟩ := merged_mem hy
    have := (kept_columns ops [] [] hcol (by simp) s hs' y hys).1.2.2
    exact ⟨by rw [this, mul_one], fun k hk' => (hd k hk').2.2 y hy⟩

example : (keptVFrom ([], []) planarOps).1 = planarSteps ∧ (mergedV planarSteps).length = 3 := by decide +kernel

/-- C155: all samples of a step are columns with the same number of elements, and their times increase. -/
theorem vector_step_samples {s : VStep R} (hs : ReachableVStep s) :
    s ≠ [] ∧ (∃ n, ∀ x ∈ s, x.2.1.rows = n ∧ x.2.1.cols = 1 ∧ x.2.2.rows = n ∧ x.2.2.cols = 1) ∧
      (s.map fun x => x.1).Pairwise (· < ·) := by
  induction hs with
  | @make x s h =>
    simp only [VStep.make, bind_ok, pure_ok] at h
    obtain ⟨_, h, rfl⟩ := h
    obtain ⟨h1, h2, h3⟩ := (triplet_first x).1 h
    refine ⟨by simp, ⟨x.2.1.rows, fun y hy => ?_⟩, by simp⟩
    rw [List.mem_singleton.1 hy]
    exact ⟨rfl, h1, h3.symm, h2⟩
  | @extend s x s' _ h ih =>
    obtain ⟨hne, ⟨n, hn⟩, hp⟩ := ih
    have hl := List.getLast?_eq_some_getLast hne
    have eb : back s = .ok (s.getLast hne) := by unfold back; rw [hl]
    have ef : front s = .ok (s.head hne) := by unfold front; rw [List.head?_eq_some_head hne]
    simp only [VStep.extend, bind_ok, pure_ok] at h
    obtain ⟨_, h, rfl⟩ := h
    obtain ⟨h1, h2, -, h4, h5, h6⟩ := (triplet_next ef eb x).1 h
    refine ⟨by simp, ⟨n, fun y hy => ?_⟩, ?_⟩
    · rcases List.mem_append.1 hy with hy | hy
      · exact hn y hy
      · rw [List.mem_singleton.1 hy]
        have := (hn _ (List.getLast_mem hne)).1
        exact ⟨h5.symm.trans this, h1, h6.symm.trans (h5.symm.trans this), h2⟩
    · rw [List.map_append, List.pairwise_append]
      refine ⟨hp, by simp, fun a ha b hb => ?_⟩
      simp only [List.map_cons, List.map_nil, List.mem_singleton] at hb
      subst hb
      obtain ⟨y, hy, rfl⟩ := List.mem_map.mp ha
      refine lt_of_le_of_lt ?_ (not_le.1 h4)
      rw [← List.dropLast_append_getLast hne] at hy hp
      rw [List.map_append, List.pairwise_append] at hp
      rcases List.mem_append.mp hy with h | h
      · exact (hp.2.2 _ (List.mem_map.mpr ⟨y, h, rfl⟩) _ (by simp)).le
      · rw [List.mem_singleton.mp h]

/-- C155: a step is extended exactly by columns that have as many elements as those of its samples and a later time than all of
them. -/
theorem vector_step_extend_iff {s : VStep R} (hs : ReachableVStep s) (x : VSample R) :
    (∃ s', s.extend x = .ok s') ↔ x.2.1.cols = 1 ∧ x.2.2.cols = 1 ∧ x.2.1.rows = x.2.2.rows ∧
      ∀ y ∈ s, y.1 < x.1 ∧ y.2.1.rows = x.2.1.rows := by
  obtain ⟨hne, ⟨n, hn⟩, hp⟩ := vector_step_samples hs
  have hl := List.getLast?_eq_some_getLast hne
  have eb : back s = .ok (s.getLast hne) := by unfold back; rw [hl]
  have ef : front s = .ok (s.head hne) := by unfold front; rw [List.head?_eq_some_head hne]
  have hext : (∃ s', s.extend x = .ok s') ↔ validateTriplet s x = .ok () := by
    unfold VStep.extend
    cases validateTriplet s x with
    | error e => exact ⟨fun ⟨_, h⟩ => (by cases h), fun h => (by cases h)⟩
    | ok u => exact ⟨fun _ => rfl, fun _ => ⟨_, rfl⟩⟩
  rw [hext, triplet_next ef eb]
  have hlast := List.getLast_mem hne
  constructor
  · rintro ⟨h1, h2, -, h4, h5, h6⟩
    refine ⟨h1, h2, h6, fun y hy => ⟨lt_of_le_of_lt ?_ (not_le.1 h4), ?_⟩⟩
    · rw [← List.dropLast_append_getLast hne] at hy hp
      rw [List.map_append, List.pairwise_append] at hp
      rcases List.mem_append.mp hy with h | h
      · exact (hp.2.2 _ (List.mem_map.mpr ⟨y, h, rfl⟩) _ (by simp)).le
      · rw [List.mem_singleton.mp h]
    · rw [(hn y hy).1, ← (hn _ hlast).1, h5]
  · rintro ⟨h1, h2, h3, h4⟩
    exact ⟨h1, h2, not_lt.2 (h4 _ (List.head_mem hne)).1.le, not_le.2 (h4 _ hlast).1, (h4 _ hlast).2, h3⟩

/-- A sample with two components. -/
def planarSample (t : ℚ) : VSample ℚ := (t, ⟨2, 1, [t, 1]⟩, ⟨2, 1, [1, 0]⟩)

example : ReachableVStep [planarSample 0, planarSample 1] :=
  .extend (s := [planarSample 0]) (.make (x := planarSample 0) (by decide +kernel)) (x := planarSample 1) (by decide +kernel)

/-- The step that the next one has to continue. -/
def previousVStep (o : VOutput R) : Option (VStep R) :=
  if o.rawSteps ≠ [] then o.rawSteps.getLast? else if o.isEmpty then none else some o.lastConsolidated

/-- The Euclidean distance of two columns, squared. -/
def distanceSquared (a b : Mat R) : R := ((List.zip a.data b.data).map fun x => (x.1 - x.2) ^ 2).sum

/-- The Euclidean norm of a column, squared. -/
def normSquared (a : Mat R) : R := (a.data.map fun x => x ^ 2).sum

/-- C155: an update is accepted exactly if the step has a length, as many components as the previous step, and starts where that one
ended: at the same time up to the resolution of `double`, and with the same state and derivative up to an error that is small against
their norms. -/
theorem vector_update_accepts_iff (o : VOutput R) (s : VStep R) (hs : ReachableVStep s) (a b : VSample R) (ha : s.head? = some a)
    (hb : s.getLast? = some b) (hprev : ∀ p ∈ previousVStep o, ReachableVStep p) :
    (o.update s).2 = .ok () ↔ a.1 ≠ b.1 ∧ ∀ p ∈ previousVStep o, ∀ e ∈ p.getLast?,
      e.2.1.rows = a.2.1.rows ∧ |e.1 - a.1| ≤ max |e.1| 1 * epsilonTime ∧
      distanceSquared e.2.1 a.2.1 ≤ (1 / 10 ^ 12) ^ 2 * min (normSquared e.2.1) (normSquared a.2.1) ∧
      distanceSquared e.2.2 a.2.2 ≤ (1 / 10 ^ 12) ^ 2 * min (normSquared e.2.2) (normSquared a.2.2) := by
  obtain ⟨hne, ⟨n, hn⟩, -⟩ := vector_step_samples hs
  have e2 : front s = .ok a := by unfold front; rw [ha]
  have e3 : back s = .ok b := by unfold back; rw [hb]
  have ma := hn a (List.mem_of_head? ha)
  have mb := hn b (List.mem_of_getLast? hb)
  have hsq : ∀ l : List R, squares l = (l.map fun x => x ^ 2).sum := by
    intro l
    simp only [squares, pow_two]
  have hdist : ∀ l r : List R, squares (List.zipWith (· - ·) l r) = ((List.zip l r).map fun x => (x.1 - x.2) ^ 2).sum := by
    intro l r
    rw [hsq, List.zip, List.map_zipWith, List.map_zipWith]
  have happrox : ∀ x y : Mat R, x.rows = y.rows → x.cols = y.cols → approxMatrices x y =
      .ok (decide (distanceSquared x y ≤ (1 / 10 ^ 12) ^ 2 * min (normSquared x) (normSquared y))) := by
    intro x y h1 h2
    unfold approxMatrices
    rw [if_pos ⟨h1, h2⟩, hsq x.data, hsq y.data, hdist, ← pow_two]
    rfl
  have hens : ∀ p : VStep R, ReachableVStep p → (ensureContinuity s p = .ok () ↔ ∀ e ∈ p.getLast?,
      e.2.1.rows = a.2.1.rows ∧ |e.1 - a.1| ≤ max |e.1| 1 * epsilonTime ∧
      distanceSquared e.2.1 a.2.1 ≤ (1 / 10 ^ 12) ^ 2 * min (normSquared e.2.1) (normSquared a.2.1) ∧
      distanceSquared e.2.2 a.2.2 ≤ (1 / 10 ^ 12) ^ 2 * min (normSquared e.2.2) (normSquared a.2.2)) := by
    intro p hp
    obtain ⟨hpne, ⟨m, hm⟩, -⟩ := vector_step_samples hp
    have hl := List.getLast?_eq_some_getLast hpne
    have e1 : back p = .ok (p.getLast hpne) := by unfold back; rw [hl]
    have me := hm _ (List.getLast_mem hpne)
    rw [hl]
    revert e1 me
    generalize p.getLast hpne = e
    intro e1 me
    simp only [Option.mem_def, Option.some.injEq, forall_eq']
    unfold ensureContinuity VStep.size
    rw [e1, e2, e3]
    change (do
      throwUnless (decide (e.2.1.rows = b.2.1.rows))
      throwUnless (decide (¬ |e.1 - a.1| > max |e.1| 1 * epsilonTime))
      throwUnless (← approxMatrices e.2.1 a.2.1)
      throwUnless (← approxMatrices e.2.2 a.2.2)) = _ ↔ _
    rw [guard_bind, mb.1, ← ma.1]
    refine and_congr_right fun hr => ?_
    rw [guard_bind, not_lt]
    refine and_congr_right fun _ => ?_
    rw [happrox e.2.1 a.2.1 hr (by rw [me.2.1, ma.2.1]),
      happrox e.2.2 a.2.2 (by rw [me.2.2.1, ma.2.2.1, ← me.1, ← ma.1, hr]) (by rw [me.2.2.2, ma.2.2.2])]
    change (do throwUnless (decide _); throwUnless (decide _)) = _ ↔ _
    rw [guard_bind, throwUnless_ok, decide_eq_true_eq]
  have hv : (o.update s).2 = .ok () ↔ o.validateStep s = .ok () := by
    unfold VOutput.update
    cases o.validateStep s with
    | error e => exact Iff.rfl
    | ok u => exact Iff.rfl
  rw [hv]
  unfold VOutput.validateStep
  rw [e2, e3]
  change (do throwUnless (decide (a.1 ≠ b.1)); _) = _ ↔ _
  rw [guard_bind]
  refine and_congr_right fun _ => ?_
  unfold previousVStep at hprev ⊢
  by_cases hr : o.rawSteps ≠ []
  · rw [if_pos hr] at hprev ⊢
    rw [if_pos hr]
    have hl := List.getLast?_eq_some_getLast hr
    have e4 : back o.rawSteps = .ok (o.rawSteps.getLast hr) := by unfold back; rw [hl]
    rw [hl] at hprev ⊢
    rw [e4]
    simp only [Option.mem_def, Option.some.injEq, forall_eq'] at hprev ⊢
    exact hens _ hprev
  · rw [if_neg hr] at hprev ⊢
    rw [if_neg hr]
    by_cases ht : o.trajectory.matrices = []
    · have : o.isEmpty = true := by simp [VOutput.isEmpty, ht]
      rw [if_neg (by simpa using ht), if_pos this]
      simp [pure, Except.pure]
    · have : ¬ o.isEmpty = true := by simp [VOutput.isEmpty, ht]
      rw [if_neg this] at hprev ⊢
      rw [if_pos ht]
      simp only [Option.mem_def, Option.some.injEq, forall_eq'] at hprev ⊢
      exact hens _ hprev

/-- An output that waits for one step. -/
def planarPending : VOutput ℚ := ⟨0, 0, [], [[planarSample 0, planarSample 1]], ⟨[], []⟩⟩

example : (planarPending.update [planarSample 1, planarSample 2]).2 = .ok () ∧
    (planarPending.update [planarSample 2, planarSample 3]).2 = .error .throws ∧
    (planarPending.update [(1, ⟨1, 1, [1]⟩, ⟨1, 1, [1]⟩), (2, ⟨1, 1, [1]⟩, ⟨1, 1, [1]⟩)]).2 = .error .throws := by decide +kernel

example : ∀ p ∈ previousVStep planarPending, ReachableVStep p := by
  intro p hp
  have : p = [planarSample 0, planarSample 1] := (Option.some.inj hp).symm
  rw [this]
  exact .extend (s := [planarSample 0]) (.make (x := planarSample 0) (by decide +kernel)) (x := planarSample 1) (by decide +kernel)

end Maliput.Props
