import Verif.Lemmas.DenseOutput
import Verif.Lemmas.MatrixSplines
import Verif.Props.MatrixTrajectory
import Verif.Spec.VectorDenseOutput

set_option autoImplicit false
set_option linter.unusedSectionVars false

/-! Lemmas for the stepwise dense output of states with any number of components. -/
namespace Maliput.VectorDenseOut
open Maliput Piecewise DenseOut Piecewise.Spec Maliput.Spec

variable {R : Type} [Field R] [LinearOrder R] [IsStrictOrderedRing R] {n : Nat}

local instance fieldInhabited : Inhabited R := ⟨0⟩

/-- An output as component `k` sees it. -/
def VOutput.component (k : Nat) (o : VOutput R) : Output R :=
  ⟨o.startTime, o.endTime, stepOf k o.lastConsolidated, o.rawSteps.map (stepOf k), o.trajectory.ent k 0⟩

theorem get_component {m : Mat R} (h : Shape n 1 m) {k : Nat} (hk : k < n) : m.get k 0 = .ok (m.data.getD k 0) := by
  rw [Mat.get_eq h hk one_pos]
  simp only [Mat.at, zero_mul, zero_add]
  rfl

theorem column_eq {ys : List (Mat R)} (h : ∀ y ∈ ys, Shape n 1 y) {k : Nat} (hk : k < n) :
    column ys k 0 = .ok (ys.map fun y => y.data.getD k 0) := by
  unfold column
  exact mapM_eq_map fun y hy => get_component (h y hy) hk

theorem consecutive_ne_nil {α β : Type} (f : α → α → β) {l : List α} (h : 2 ≤ l.length) : consecutive f l ≠ [] := by
  match l, h with
  | a :: b :: r, _ => simp [consecutive]

theorem hermite_component (hn : 0 < n) {s : VStep R} (hs : ColumnStep n s) (h : SplineStep (stepOf 0 s)) :
    ∃ q, VStep.hermite s = .ok q ∧ Shaped n 1 q ∧ q.matrices ≠ [] ∧ ∀ k < n, Step.hermite (stepOf k s) = .ok (q.ent k 0) := by
  have hy : ∀ y ∈ s.map (fun x => x.2.1), Shape n 1 y := by
    intro y hy
    obtain ⟨x, hx, rfl⟩ := List.mem_map.1 hy
    exact (hs x hx).1
  have hyd : ∀ y ∈ s.map (fun x => x.2.2), Shape n 1 y := by
    intro y hy
    obtain ⟨x, hx, rfl⟩ := List.mem_map.1 hy
    exact (hs x hx).2
  have hl := cubicHermite_lifts hy hyd hn one_pos (s.map fun x => x.1)
  have he : ∀ k < n, ((column (s.map fun x => x.2.1) k 0).bind fun y => (column (s.map fun x => x.2.2) k 0).bind fun yd =>
      cubicHermite (s.map fun x => x.1) y yd) = Step.hermite (stepOf k s) := by
    intro k hk
    rw [column_eq hy hk, column_eq hyd hk]
    simp only [Except.bind, Step.hermite, stepOf, List.map_map]
    rfl
  have h0 : Step.hermite (stepOf 0 s) = .ok (sp (stepOf 0 s)) := by rw [step_hermite, splineOf_ok h]
  unfold Lifts at hl
  change (match VStep.hermite s with | .ok q => _ | .error e => _) at hl
  cases e : VStep.hermite s with
  | error err =>
    rw [e] at hl
    have := (he 0 hn).symm.trans (hl 0 0 hn one_pos)
    rw [h0] at this
    cases this
  | ok q =>
    rw [e] at hl
    obtain ⟨h1, h2⟩ := hl
    have hk : ∀ k < n, Step.hermite (stepOf k s) = .ok (q.ent k 0) := by
      intro k hk
      exact (he k hk).symm.trans ((h2 k 0 hk one_pos).trans (entry_eq h1 hk one_pos))
    refine ⟨q, rfl, h1, ?_, hk⟩
    intro hq
    have := hk 0 hn
    rw [h0] at this
    have hp := congrArg PP.polynomials (Except.ok.inj this)
    simp only [sp, MP.ent, hq, List.map_nil] at hp
    exact consecutive_ne_nil _ h.1 hp

theorem concatenate_total {p q : MP R} {z : PP R} (hp : Shaped n 1 p) (hq : Shaped n 1 q) (hne : q.matrices ≠ [])
    (h : (p.ent 0 0).concatenate (q.ent 0 0) = .ok z) : ∃ k, p.concatenate q = .ok k := by
  unfold MP.concatenate
  by_cases hm : p.matrices = []
  · rw [if_neg (by simpa using hm)]
    exact ⟨q, rfl⟩
  · rw [if_pos hm]
    unfold PP.concatenate at h
    rw [if_pos (by simpa [MP.ent] using hm)] at h
    simp only [ent_startTime, ent_endTime, bind_ok, throwUnless_ok] at h
    obtain ⟨a, ha, b, hb, c, hc, -, hlt, -⟩ := h
    rw [hb] at hc
    obtain rfl := Except.ok.inj hc
    have ht : throwUnless true = .ok () := rfl
    simp only [shaped_rows_ok hp hm, shaped_cols_ok hp hm, shaped_rows_ok hq hne, shaped_cols_ok hq hne, bind, Except.bind,
      ha, hb, decide_true, ht, hlt]
    exact ⟨_, rfl⟩

theorem consolidateSteps_component (hn : 0 < n) : ∀ (steps : List (VStep R)) (p : MP R), Shaped n 1 p →
    (∀ s ∈ steps, ColumnStep n s) → (∀ s ∈ steps, SplineStep (stepOf 0 s)) →
    (∃ z, consolidateLoop (steps.map (stepOf 0)) (p.ent 0 0) = (z, .ok ())) →
    ∃ p', consolidateSteps steps p = (p', .ok ()) ∧ Shaped n 1 p' ∧
      ∀ k < n, consolidateLoop (steps.map (stepOf k)) (p.ent k 0) = (p'.ent k 0, .ok ())
  | [], p, hp, _, _, _ => ⟨p, rfl, hp, fun _ _ => rfl⟩
  | s :: rest, p, hp, hc, hs, ⟨z, hz⟩ => by
    obtain ⟨q, hq, hq1, hq2, hq3⟩ := hermite_component hn (hc s (by simp)) (hs s (by simp))
    have hloop : ∀ k < n, consolidateLoop ((s :: rest).map (stepOf k)) (p.ent k 0) =
        match (p.ent k 0).concatenate (q.ent k 0) with
        | .error e => (p.ent k 0, .error e)
        | .ok p' => consolidateLoop (rest.map (stepOf k)) p' := by
      intro k hk
      rw [List.map_cons, consolidateLoop, hq3 k hk]
      dsimp only
      cases (p.ent k 0).concatenate (q.ent k 0) <;> rfl
    rw [hloop 0 hn] at hz
    cases e : (p.ent 0 0).concatenate (q.ent 0 0) with
    | error err => rw [e] at hz; cases hz
    | ok p0 =>
      rw [e] at hz
      obtain ⟨p1, hp1⟩ := concatenate_total hp hq1 hq2 e
      obtain ⟨h1, h2⟩ := Props.matrix_trajectory_concatenate hp hq1 hp1
      have h3 : ∀ k < n, (p.ent k 0).concatenate (q.ent k 0) = .ok (p1.ent k 0) := by
        intro k hk
        have := h2 k 0 hk one_pos
        rwa [entry_eq hp hk one_pos, entry_eq hq1 hk one_pos, entry_eq h1 hk one_pos] at this
      rw [h3 0 hn] at e
      obtain rfl := Except.ok.inj e
      obtain ⟨p', k1, k2, k3⟩ := consolidateSteps_component hn rest p1 h1 (fun x hx => hc x (by simp [hx]))
        (fun x hx => hs x (by simp [hx])) ⟨z, hz⟩
      refine ⟨p', ?_, k2, fun k hk => ?_⟩
      · rw [consolidateSteps, hq]
        dsimp only
        rw [hp1]
        exact k1
      · rw [hloop k hk, h3 k hk]
        exact k3 k hk

theorem shape_ext {a b : Mat R} (ha : Shape n 1 a) (hb : Shape n 1 b) (h : ∀ k < n, a.data.getD k 0 = b.data.getD k 0) : a = b := by
  obtain ⟨a1, a2, a3⟩ := ha
  obtain ⟨b1, b2, b3⟩ := hb
  have : a.data = b.data := by
    refine List.ext_getElem (by rw [a3, b3]) fun i hi hj => ?_
    have := h i (by rw [a3] at hi; omega)
    simpa [hi, hj] using this
  cases a
  cases b
  simp_all

theorem squares_nonneg (l : List R) : 0 ≤ squares l := by
  unfold squares
  refine List.sum_nonneg fun x hx => ?_
  obtain ⟨a, _, rfl⟩ := List.mem_map.1 hx
  exact mul_self_nonneg a

theorem squares_self (l : List R) : squares (List.zipWith (· - ·) l l) = 0 := by
  unfold squares
  induction l with
  | nil => rfl
  | cons a l ih => simp only [List.zipWith_cons_cons, List.map_cons, List.sum_cons, sub_self, mul_zero, zero_add]; exact ih

theorem approx_self (a : Mat R) : approxMatrices a a = .ok true := by
  unfold approxMatrices
  rw [if_pos ⟨rfl, rfl⟩, squares_self, min_self, decide_eq_true]
  exact mul_nonneg (by positivity) (squares_nonneg _)

theorem head_stepOf (k : Nat) (s : VStep R) : (stepOf k s).head? = s.head?.map (sampleOf k) := List.head?_map
theorem last_stepOf (k : Nat) (s : VStep R) : (stepOf k s).getLast? = s.getLast?.map (sampleOf k) := List.getLast?_map

theorem continues_vector (hn : 0 < n) {prev s : VStep R} (hp : ColumnStep n prev) (hs : ColumnStep n s) (hne : s ≠ [])
    (h : ∀ k < n, Continues (stepOf k prev) (stepOf k s)) : ∃ x, prev.getLast? = some x ∧ s.head? = some x := by
  have hx := List.head?_eq_some_head hne
  refine ⟨s.head hne, ?_, hx⟩
  have h0 := h 0 hn
  unfold Continues at h0
  rw [head_stepOf, last_stepOf, hx] at h0
  cases e : prev.getLast? with
  | none => rw [e] at h0; cases h0
  | some y =>
    have hy := hp y (List.mem_of_getLast? e)
    have hx' := hs _ (List.head_mem hne)
    have key : ∀ k < n, sampleOf k y = sampleOf k (s.head hne) := by
      intro k hk
      have := h k hk
      unfold Continues at this
      rw [head_stepOf, last_stepOf, hx, e] at this
      exact Option.some.inj this
    congr 1
    refine Prod.ext (congrArg (·.1) (key 0 hn)) (Prod.ext ?_ ?_)
    · exact shape_ext hy.1 hx'.1 fun k hk => congrArg (·.2.1) (key k hk)
    · exact shape_ext hy.2 hx'.2 fun k hk => congrArg (·.2.2) (key k hk)

theorem ensure_vector {prev s : VStep R} (hp : ColumnStep n prev) (hs : ColumnStep n s) {x : VSample R}
    (h1 : prev.getLast? = some x) (h2 : s.head? = some x) : ensureContinuity s prev = .ok () := by
  have hne : s ≠ [] := by rintro rfl; cases h2
  have hl := List.getLast?_eq_some_getLast hne
  have e1 : back prev = .ok x := by unfold back; rw [h1]
  have e2 : front s = .ok x := by unfold front; rw [h2]
  have e3 : back s = .ok (s.getLast hne) := by unfold back; rw [hl]
  have hr : x.2.1.rows = (s.getLast hne).2.1.rows := by
    rw [(hp x (List.mem_of_getLast? h1)).1.1, (hs _ (List.getLast_mem hne)).1.1]
  have he : (0 : R) ≤ max |x.1| 1 * epsilonTime :=
    mul_nonneg (le_trans zero_le_one (le_max_right _ _)) (by unfold epsilonTime; norm_num)
  simp only [ensureContinuity, VStep.size, e1, e2, e3, bind, Except.bind, pure, Except.pure, throwUnless_pos hr, approx_self,
    sub_self, abs_zero]
  rw [throwUnless_pos (not_lt.2 he)]
  rfl

/-- What the members are after calls that respect the protocol. -/
structure Tracks (n : Nat) (o : VOutput R) (done pending : List (VStep R)) : Prop where
  raw : o.rawSteps = pending
  columns : ∀ s ∈ done ++ pending, ColumnStep n s
  lastStep : ∀ s ∈ done.getLast?, o.lastConsolidated = s
  shaped : Shaped n 1 o.trajectory
  each : ∀ k < n, Represents (o.component k) (done.map (stepOf k)) (pending.map (stepOf k))

theorem update_tracks (hn : 0 < n) {o : VOutput R} {done pending : List (VStep R)} (h : Tracks n o done pending) {s : VStep R}
    (hcol : ColumnStep n s) (hs : ∀ k < n, SplineStep (stepOf k s))
    (hc : ∀ k < n, ∀ prev ∈ (done.map (stepOf k) ++ pending.map (stepOf k)).getLast?, Continues prev (stepOf k s)) :
    ∃ o', o.update s = (o', .ok ()) ∧ Tracks n o' done (pending ++ [s]) ∧
      ∀ k < n, (o.component k).update (stepOf k s) = (o'.component k, .ok ()) := by
  have hne : s ≠ [] := by
    rintro rfl
    exact spline_ne_nil (hs 0 hn) rfl
  have hcv : ∀ prev ∈ (done ++ pending).getLast?, ensureContinuity s prev = .ok () := by
    intro prev hprev
    have hp := h.columns prev (List.mem_of_getLast? hprev)
    obtain ⟨x, h1, h2⟩ := continues_vector hn hp hcol hne fun k hk => hc k hk _ (by
      rw [← List.map_append, List.getLast?_map, Option.mem_def.1 hprev]; rfl)
    exact ensure_vector hp hcol h1 h2
  have hv : o.validateStep s = .ok () := by
    obtain ⟨a, b, ha, hb, hab⟩ := spline_ends (hs 0 hn)
    have hh := List.head?_eq_some_head hne
    have hl := List.getLast?_eq_some_getLast hne
    have e2 : front s = .ok (s.head hne) := by unfold front; rw [hh]
    have e3 : back s = .ok (s.getLast hne) := by unfold back; rw [hl]
    have ea : a = sampleOf 0 (s.head hne) := by
      unfold front at ha; rw [head_stepOf, hh] at ha; exact (Except.ok.inj ha).symm
    have eb : b = sampleOf 0 (s.getLast hne) := by
      unfold back at hb; rw [last_stepOf, hl] at hb; exact (Except.ok.inj hb).symm
    subst ea eb
    have hne' : (s.head hne).1 ≠ (s.getLast hne).1 := ne_of_lt hab
    unfold VOutput.validateStep
    simp only [e2, e3, bind, Except.bind, throwUnless_pos hne']
    by_cases hr : o.rawSteps = []
    · rw [if_neg (by simpa using hr)]
      by_cases ht : o.trajectory.matrices = []
      · rw [if_neg (by simpa using ht)]
        rfl
      · rw [if_pos ht]
        have hp : pending = [] := by rw [← h.raw, hr]
        subst hp
        have hd : done ≠ [] := by
          rintro rfl
          have := (h.each 0 hn).trajectory
          apply ht
          have := congrArg PP.polynomials this
          simpa [VOutput.component, MP.ent, trajOf, Piecewise.empty] using this
        have hl := List.getLast?_eq_some_getLast hd
        rw [h.lastStep _ hl]
        exact hcv _ (by rw [List.append_nil]; exact hl)
    · rw [if_pos hr, h.raw]
      have hp : pending ≠ [] := by rwa [← h.raw]
      have hl := List.getLast?_eq_some_getLast hp
      have e : back pending = .ok (pending.getLast hp) := by unfold back; rw [hl]
      rw [e]
      refine hcv _ ?_
      rw [List.getLast?_append, hl]
      rfl
  have hup : ∀ k < n, (o.component k).update (stepOf k s) =
      (({ o with rawSteps := o.rawSteps ++ [s] } : VOutput R).component k, .ok ()) ∧
      Represents (({ o with rawSteps := o.rawSteps ++ [s] } : VOutput R).component k) (done.map (stepOf k))
        ((pending ++ [s]).map (stepOf k)) := by
    intro k hk
    obtain ⟨o', e, h'⟩ := update_represents (h.each k hk) (hs k hk) (hc k hk)
    have : o' = ({ o with rawSteps := o.rawSteps ++ [s] } : VOutput R).component k := by
      unfold Output.update at e
      cases ev : (o.component k).validateStep (stepOf k s) with
      | error err => rw [ev] at e; cases e
      | ok u =>
        rw [ev] at e
        have e' := congrArg Prod.fst e
        dsimp only at e'
        rw [← e']
        simp [VOutput.component]
    rw [this] at e h'
    rw [List.map_append]
    exact ⟨e, h'⟩
  refine ⟨{ o with rawSteps := o.rawSteps ++ [s] }, ?_, ⟨by rw [← h.raw], ?_, h.lastStep, h.shaped, fun k hk => (hup k hk).2⟩,
    fun k hk => (hup k hk).1⟩
  · unfold VOutput.update
    rw [hv]
  · intro x hx
    rw [← List.append_assoc, List.mem_append, List.mem_singleton] at hx
    rcases hx with hx | rfl
    · exact h.columns x hx
    · exact hcol

theorem rollback_tracks {o : VOutput R} {done pending : List (VStep R)} (h : Tracks n o done pending) (hp : pending ≠ []) :
    ∃ o', o.rollback = (o', .ok ()) ∧ Tracks n o' done pending.dropLast ∧
      ∀ k < n, (o.component k).rollback = (o'.component k, .ok ()) := by
  have hup : ∀ k < n, (o.component k).rollback = (({ o with rawSteps := o.rawSteps.dropLast } : VOutput R).component k, .ok ()) ∧
      Represents (({ o with rawSteps := o.rawSteps.dropLast } : VOutput R).component k) (done.map (stepOf k))
        (pending.dropLast.map (stepOf k)) := by
    intro k hk
    obtain ⟨o', e, h'⟩ := rollback_represents (h.each k hk) (by simpa using hp)
    have : o' = ({ o with rawSteps := o.rawSteps.dropLast } : VOutput R).component k := by
      unfold Output.rollback at e
      rw [if_neg (by rw [(h.each k hk).raw]; simpa using hp)] at e
      have e' := congrArg Prod.fst e
      dsimp only at e'
      rw [← e']
      simp [VOutput.component, List.map_dropLast]
    rw [this] at e h'
    rw [List.map_dropLast]
    exact ⟨e, h'⟩
  refine ⟨{ o with rawSteps := o.rawSteps.dropLast }, ?_, ⟨by rw [← h.raw], ?_, h.lastStep, h.shaped, fun k hk => (hup k hk).2⟩,
    fun k hk => (hup k hk).1⟩
  · unfold VOutput.rollback
    rw [if_neg (by rwa [h.raw])]
  · intro x hx
    refine h.columns x ?_
    rcases List.mem_append.1 hx with hx | hx
    · simp [hx]
    · simp [List.dropLast_subset _ hx]

theorem consolidate_tracks (hn : 0 < n) {o : VOutput R} {done pending : List (VStep R)} (h : Tracks n o done pending)
    (hp : pending ≠ []) :
    ∃ o', o.consolidate = (o', .ok ()) ∧ Tracks n o' (done ++ pending) [] ∧
      ∀ k < n, (o.component k).consolidate = (o'.component k, .ok ()) := by
  have hl := List.getLast?_eq_some_getLast hp
  have hb : back pending = .ok (pending.getLast hp) := by unfold back; rw [hl]
  have hcons : ∀ k < n, ∃ p s e, consolidateLoop (pending.map (stepOf k)) (o.trajectory.ent k 0) = (p, .ok ()) ∧
      p.startTime = .ok s ∧ p.endTime = .ok e ∧
      (o.component k).consolidate = (⟨s, e, stepOf k (pending.getLast hp), [], p⟩, .ok ()) ∧
      Represents (⟨s, e, stepOf k (pending.getLast hp), [], p⟩ : Output R) ((done ++ pending).map (stepOf k)) [] := by
    intro k hk
    obtain ⟨o', e, h'⟩ := consolidate_represents (h.each k hk) (by simpa using hp)
    rw [List.map_append]
    have e0 := e
    unfold Output.consolidate at e
    rw [if_neg (by rw [(h.each k hk).raw]; simpa using hp), (h.each k hk).raw] at e
    have hbk : back (pending.map (stepOf k)) = .ok (stepOf k (pending.getLast hp)) := by
      unfold back; rw [List.getLast?_map, hl]; rfl
    rw [hbk] at e
    change (match consolidateLoop (pending.map (stepOf k)) (o.trajectory.ent k 0) with
      | (p, .error e) => _ | (p, .ok ()) => _) = _ at e
    rcases e1 : consolidateLoop (pending.map (stepOf k)) (o.trajectory.ent k 0) with ⟨p, err | u⟩
    · rw [e1] at e; cases e
    · rw [e1] at e
      dsimp only at e
      cases es : p.startTime with
      | error err => rw [es] at e; cases e
      | ok s =>
        cases ee : p.endTime with
        | error err => rw [es, ee] at e; cases e
        | ok en =>
          rw [es, ee] at e
          have : o' = ⟨s, en, stepOf k (pending.getLast hp), [], p⟩ := (Prod.ext_iff.1 e).1.symm
          rw [this] at e0 h'
          exact ⟨p, s, en, rfl, es, ee, e0, h'⟩
  obtain ⟨z, s, e, hz, hs, he, -, -⟩ := hcons 0 hn
  obtain ⟨p', k1, k2, k3⟩ := consolidateSteps_component hn pending o.trajectory h.shaped
    (fun x hx => h.columns x (by simp [hx])) (fun x hx => (h.each 0 hn).steps _ (by
      rw [← List.map_append]; exact List.mem_map.2 ⟨x, by simp [hx], rfl⟩)) ⟨z, hz⟩
  have hzp : z = p'.ent 0 0 := by
    have := k3 0 hn
    rw [hz] at this
    exact (Prod.ext_iff.1 this).1
  rw [hzp, ent_startTime] at hs
  rw [hzp, ent_endTime] at he
  have hup : ∀ k < n, (o.component k).consolidate = ((⟨s, e, pending.getLast hp, [], p'⟩ : VOutput R).component k, .ok ()) ∧
      Represents ((⟨s, e, pending.getLast hp, [], p'⟩ : VOutput R).component k) ((done ++ pending).map (stepOf k)) [] := by
    intro k hk
    obtain ⟨zk, sk, ek, hzk, hsk, hek, h1, h2⟩ := hcons k hk
    have : zk = p'.ent k 0 := by
      have := k3 k hk
      rw [hzk] at this
      exact (Prod.ext_iff.1 this).1
    subst this
    rw [ent_startTime, hs] at hsk
    rw [ent_endTime, he] at hek
    obtain rfl := Except.ok.inj hsk
    obtain rfl := Except.ok.inj hek
    exact ⟨h1, h2⟩
  refine ⟨⟨s, e, pending.getLast hp, [], p'⟩, ?_, ⟨rfl, by simpa using h.columns, ?_, k2, fun k hk => (hup k hk).2⟩,
    fun k hk => (hup k hk).1⟩
  · unfold VOutput.consolidate
    rw [if_neg (by rwa [h.raw]), h.raw, k1]
    dsimp only
    rw [hs, he, hb]
  · intro x hx
    rw [List.getLast?_append, hl] at hx
    exact Option.some.inj hx

theorem run_tracks (hn : 0 < n) : ∀ (ops : List (VOp R)) (o : VOutput R) (done pending : List (VStep R)), Tracks n o done pending →
    (∀ op ∈ ops, ColumnOp n op) →
    (∀ k < n, ProperFrom (done.map (stepOf k), pending.map (stepOf k)) (ops.map (opOf k))) →
    ∃ o' done' pending', o.run ops = .ok o' ∧ Tracks n o' done' pending' ∧
      ∀ k < n, (o.component k).run (ops.map (opOf k)) = .ok (o'.component k)
  | [], o, done, pending, h, _, _ => ⟨o, done, pending, rfl, h, fun _ _ => rfl⟩
  | .update s :: rest, o, done, pending, h, hcol, hp => by
    obtain ⟨o', e, h', he⟩ := update_tracks hn h (hcol (.update s) (by simp)) (fun k hk => (hp k hk).1) (fun k hk => (hp k hk).2.1)
    obtain ⟨o'', d, p, e', h'', he'⟩ := run_tracks hn rest o' done (pending ++ [s]) h' (fun op hop => hcol op (by simp [hop]))
      (fun k hk => by rw [List.map_append]; exact (hp k hk).2.2)
    refine ⟨o'', d, p, ?_, h'', fun k hk => ?_⟩
    · unfold VOutput.run VOutput.exec
      dsimp only
      rw [e]
      exact e'
    · rw [List.map_cons]
      unfold Output.run Output.exec opOf
      dsimp only
      rw [he k hk]
      exact he' k hk
  | .rollback :: rest, o, done, pending, h, hcol, hp => by
    obtain ⟨o', e, h', he⟩ := rollback_tracks h (by simpa using (hp 0 hn).1)
    obtain ⟨o'', d, p, e', h'', he'⟩ := run_tracks hn rest o' done pending.dropLast h' (fun op hop => hcol op (by simp [hop]))
      (fun k hk => by rw [List.map_dropLast]; exact (hp k hk).2)
    refine ⟨o'', d, p, ?_, h'', fun k hk => ?_⟩
    · unfold VOutput.run VOutput.exec
      dsimp only
      rw [e]
      exact e'
    · rw [List.map_cons]
      unfold Output.run Output.exec opOf
      dsimp only
      rw [he k hk]
      exact he' k hk
  | .consolidate :: rest, o, done, pending, h, hcol, hp => by
    obtain ⟨o', e, h', he⟩ := consolidate_tracks hn h (by simpa using (hp 0 hn).1)
    obtain ⟨o'', d, p, e', h'', he'⟩ := run_tracks hn rest o' (done ++ pending) [] h' (fun op hop => hcol op (by simp [hop]))
      (fun k hk => by rw [List.map_append]; exact (hp k hk).2)
    refine ⟨o'', d, p, ?_, h'', fun k hk => ?_⟩
    · unfold VOutput.run VOutput.exec
      dsimp only
      rw [e]
      exact e'
    · rw [List.map_cons]
      unfold Output.run Output.exec opOf
      dsimp only
      rw [he k hk]
      exact he' k hk

theorem new_tracks : Tracks n (VOutput.new : VOutput R) [] [] :=
  ⟨rfl, by simp, by simp, by simp [Shaped, VOutput.new], fun _ _ => new_represents⟩

theorem guard_bind {P : Prop} [Decidable P] {f : Except Err Unit} :
    (do throwUnless (decide P); f) = .ok () ↔ P ∧ f = .ok () := by
  by_cases h : P
  · rw [throwUnless_pos h]
    exact ⟨fun e => ⟨h, e⟩, fun e => e.2⟩
  · rw [throwUnless_neg h]
    exact ⟨nofun, fun e => absurd e.1 h⟩

theorem triplet_first (x : VSample R) :
    validateTriplet [] x = .ok () ↔ x.2.1.cols = 1 ∧ x.2.2.cols = 1 ∧ x.2.1.rows = x.2.2.rows := by
  unfold validateTriplet
  rw [guard_bind, guard_bind]
  refine and_congr_right fun _ => and_congr_right fun _ => ?_
  change throwUnless (decide (x.2.1.rows = x.2.2.rows)) = _ ↔ _
  rw [throwUnless_ok, decide_eq_true_eq]

theorem triplet_next {s : VStep R} {a b : VSample R} (ha : front s = .ok a) (hb : back s = .ok b) (x : VSample R) :
    validateTriplet s x = .ok () ↔ x.2.1.cols = 1 ∧ x.2.2.cols = 1 ∧ ¬ x.1 < a.1 ∧ ¬ x.1 ≤ b.1 ∧ b.2.1.rows = x.2.1.rows ∧
      x.2.1.rows = x.2.2.rows := by
  have hne : s ≠ [] := by rintro rfl; cases ha
  unfold validateTriplet
  rw [guard_bind, guard_bind]
  refine and_congr_right fun _ => and_congr_right fun _ => ?_
  rw [if_pos hne, if_pos hne, ha, hb]
  change (do
    throwUnless (decide (¬ x.1 < a.1))
    throwUnless (decide (¬ x.1 ≤ b.1))
    throwUnless (decide (b.2.1.rows = x.2.1.rows))
    throwUnless (decide (x.2.1.rows = x.2.2.rows))) = _ ↔ _
  rw [guard_bind, guard_bind, guard_bind, throwUnless_ok, decide_eq_true_eq]

theorem kept_component (k : Nat) : ∀ (ops : List (VOp R)) (done pending : List (VStep R)),
    keptFrom (done.map (stepOf k), pending.map (stepOf k)) (ops.map (opOf k)) =
      ((keptVFrom (done, pending) ops).1.map (stepOf k), (keptVFrom (done, pending) ops).2.map (stepOf k))
  | [], _, _ => rfl
  | .update s :: rest, done, pending => by
    have := kept_component k rest done (pending ++ [s])
    rw [List.map_append] at this
    exact this
  | .rollback :: rest, done, pending => by
    have := kept_component k rest done pending.dropLast
    rw [List.map_dropLast] at this
    exact this
  | .consolidate :: rest, done, pending => by
    have := kept_component k rest (done ++ pending) []
    rw [List.map_append] at this
    exact this

theorem merged_component (k : Nat) : ∀ steps : List (VStep R), merged (steps.map (stepOf k)) = (mergedV steps).map (sampleOf k)
  | [] => rfl
  | s :: rest => by
    simp only [List.map_cons, merged, mergedV, List.map_append, List.flatMap_map, List.map_flatMap]
    refine congrArg₂ _ rfl ?_
    refine List.flatMap_congr fun x _ => ?_
    simp [stepOf, List.map_tail]

theorem kept_columns : ∀ (ops : List (VOp R)) (done pending : List (VStep R)), (∀ op ∈ ops, ColumnOp n op) →
    (∀ s ∈ done ++ pending, ColumnStep n s) → ∀ s ∈ (keptVFrom (done, pending) ops).1, ColumnStep n s
  | [], done, pending, _, h, s, hs => h s (List.mem_append_left _ hs)
  | .update x :: rest, done, pending, ho, h, s, hs => by
    refine kept_columns rest done (pending ++ [x]) (fun op hop => ho op (by simp [hop])) (fun y hy => ?_) s hs
    rw [← List.append_assoc, List.mem_append, List.mem_singleton] at hy
    rcases hy with hy | rfl
    · exact h y hy
    · exact ho (.update y) (by simp)
  | .rollback :: rest, done, pending, ho, h, s, hs => by
    refine kept_columns rest done pending.dropLast (fun op hop => ho op (by simp [hop])) (fun y hy => h y ?_) s hs
    rcases List.mem_append.1 hy with hy | hy
    · simp [hy]
    · simp [List.dropLast_subset _ hy]
  | .consolidate :: rest, done, pending, ho, h, s, hs =>
    kept_columns rest (done ++ pending) [] (fun op hop => ho op (by simp [hop])) (by simpa using h) s hs

theorem merged_mem {steps : List (VStep R)} {y : VSample R} (h : y ∈ mergedV steps) : ∃ s ∈ steps, y ∈ s := by
  cases steps with
  | nil => cases h
  | cons s rest =>
    rcases List.mem_append.1 h with h | h
    · exact ⟨s, by simp, h⟩
    · obtain ⟨x, hx, hy⟩ := List.mem_flatMap.1 h
      exact ⟨x, by simp [hx], List.mem_of_mem_tail hy⟩

end Maliput.VectorDenseOut
