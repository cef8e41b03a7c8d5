import Verif.Lemmas.LeafDefaultsHistory
import Mathlib.Data.Rat.Defs

set_option autoImplicit false

open Maliput.SysState (Mem Discrete Abstract State Parameters valuesAt_some map_getElem map_append_left map_fresh mem_lt getValue_some Told)

/-! C141: what leaf systems declare, and the contexts made from it. -/
namespace Maliput.Props
open Maliput Maliput.StateVec Maliput.TypeErasure Maliput.LeafDefaults Maliput.LeafDefaults.Spec

variable {K V : Type}

/-- Before anything is made. -/
def nothingDeclared : LeafDefaults.World K V := ⟨⟨[], []⟩, []⟩

/-! ### Histories -/

/-- C141: whatever a program declares and does with contexts, systems and contexts are values of their own: every declaration returns the
next index and has the value it was given then, new contexts have the declared values, and every operation has the result and the
exception it has for plain values.  Without assertions this takes that the types that have a hash have different hashes. -/
theorem leaf_system_history [Zero K] [One K] {armed : Bool} {hash : CType → BitVec 64} {S : CType → Prop}
    (ht : armed = true ∨ ∀ t u, S t → S u → hash t ≠ 0#64 → hash t = hash u → t = u) (ops : List (LeafDefaults.Op K V))
    (ho : ∀ o ∈ ops, TypesIn S o) :
    ((nothingDeclared : LeafDefaults.World K V).run armed hash ops).2 = (meantRun armed [] ops).2 ∧
      Refines ((nothingDeclared : LeafDefaults.World K V).run armed hash ops).1 (meantRun armed [] ops).1 := by
  have := run_agrees (w := nothingDeclared) (ps := []) ht ⟨fun _ => none, fun _ => none, by simp, by simp, rfl, by simp⟩
    (by intro i p h; simp at h) ops ho
  exact ⟨this.1, this.2.1⟩

/-- What can be read of groups of numbers: each one, and an exception for those that do not exist. -/
def ReadsGroups (h : Heap K) (d : Discrete) (xss : List (List K)) : Prop :=
  d.length = xss.length ∧ ∀ g : Int, (d.getVector g).map (valuesAt h) =
    if 0 ≤ g then (match xss[g.toNat]? with | some xs => .ok xs | none => .error .throws) else .error .throws

/-- What can be read of abstract values. -/
def ReadsValues (values : List (Value V)) (a : Abstract) (vs : List (Value V)) : Prop :=
  a.length = vs.length ∧ ∀ (armed : Bool) (k : Nat), k < vs.length → ∃ p, a.getValue armed k = .ok p ∧ values[p]? = vs[k]?

/-- What can be read of a context: its values.  The first continuous variables are the positions, then there are the velocities and the
others. -/
structure ReadsContext (m : Mem K V) (c : Context) (s nq nv nz : Nat) (x : Data K V) : Prop where
  system : c.system = s
  sizes : x.continuous.length = nq + nv + nz
  continuous : c.state.continuous.state.copyToVector m.vectors = .ok x.continuous
  positions : c.state.continuous.q.copyToVector m.vectors = .ok (x.continuous.take nq)
  velocities : c.state.continuous.v.copyToVector m.vectors = .ok ((x.continuous.drop nq).take nv)
  others : c.state.continuous.z.copyToVector m.vectors = .ok (x.continuous.drop (nq + nv))
  discrete : ReadsGroups m.vectors c.state.discrete x.discrete
  abstract : ReadsValues m.values c.state.abstract x.abstract
  numeric : ReadsGroups m.vectors c.parameters.numeric x.numeric
  parameters : ReadsValues m.values c.parameters.abstract x.parameters

theorem readsGroups_of {h : Heap K} {as : List Nat} {xss : List (List K)} (e : as.map (h[·]?) = xss.map some) : ReadsGroups h as xss := by
  have hl : as.length = xss.length := by simpa using congrArg List.length e
  refine ⟨hl, fun g => ?_⟩
  simp only [Discrete.getVector, throwUnless]
  by_cases hg : 0 ≤ g
  · rw [if_pos hg]
    by_cases hg' : g.toNat < as.length
    · obtain ⟨x, hx1, hx2⟩ := map_getElem e hg'
      have : 0 ≤ g ∧ g < as.length := by omega
      simp only [this, and_self, decide_true, if_true, bind, Except.bind, List.getElem?_eq_getElem hg', hx2]
      rw [Except.map, valuesAt_some hx1]
    · have : ¬(0 ≤ g ∧ g < as.length) := by omega
      have hnone : xss[g.toNat]? = none := List.getElem?_eq_none (by omega)
      simp only [hnone, this, decide_false, Bool.false_eq_true, if_false, bind, Except.bind]
      rfl
  · rw [if_neg hg]
    have : ¬(0 ≤ g ∧ g < as.length) := by omega
    simp only [this, decide_false, Bool.false_eq_true, if_false, bind, Except.bind]
    rfl

theorem readsValues_of {values : List (Value V)} {as : List Nat} {vs : List (Value V)} (e : as.map (values[·]?) = vs.map some) :
    ReadsValues values (as.map some) vs := by
  have hl : as.length = vs.length := by simpa using congrArg List.length e
  refine ⟨by simpa using hl, fun armed k hk => ?_⟩
  obtain ⟨x, hx1, hx2⟩ := map_getElem e (hl ▸ hk)
  exact ⟨_, getValue_some as (hl ▸ hk), by rw [hx1, hx2]⟩

/-- C141: what a program reads from a context is its value. -/
theorem contexts_read [Zero K] [One K] {armed : Bool} {hash : CType → BitVec 64} {S : CType → Prop}
    (ht : armed = true ∨ ∀ t u, S t → S u → hash t ≠ 0#64 → hash t = hash u → t = u) (ops : List (LeafDefaults.Op K V))
    (ho : ∀ o ∈ ops, TypesIn S o) {i s nq nv nz : Nat} {x : Data K V}
    (hx : (meantRun armed [] ops).1[i]? = some (.context s nq nv nz x)) :
    ∃ c, ((nothingDeclared : LeafDefaults.World K V).run armed hash ops).1.objs[i]? = some (.context c) ∧
      ReadsContext ((nothingDeclared : LeafDefaults.World K V).run armed hash ops).1.mem c s nq nv nz x := by
  obtain ⟨-, ⟨ov, ox, hI⟩, hw⟩ := run_agrees (w := (nothingDeclared : LeafDefaults.World K V)) (ps := []) ht
    ⟨fun _ => none, fun _ => none, by simp, by simp, rfl, by simp⟩ (by intro i p h; simp at h) ops ho
  generalize ((nothingDeclared : LeafDefaults.World K V).run armed hash ops).1 = w at hI
  rcases on_context hI i with ⟨l, s', nq', nv', nz', x', e1, e2, e3, e4⟩ | ⟨_, n2⟩
  · rw [hx] at e2
    injection e2 with e2
    injection e2 with q1 q2 q3 q4 q5
    subst q1 q2 q3 q4 q5
    refine ⟨_, e1, ?_⟩
    have hsz : x.continuous.length = nq + nv + nz := (hw i _ hx).1
    have hval := valuesAt_some e3.continuous
    have hval' := hval
    rw [valuesAt] at hval'
    have hlive : StateVec.Spec.Live w.mem.vectors (.basic l.continuous) := (List.getElem?_eq_some_iff.1 e3.continuous).1
    have hlen : (w.mem.vectors.getD l.continuous []).length = nq + nv + nz := by rw [hval', hsz]
    refine ⟨rfl, hsz, ?_, ?_, ?_, ?_, readsGroups_of e3.discrete, readsValues_of e3.abstract, readsGroups_of e3.numeric,
      readsValues_of e3.parameters⟩
    · rw [← hval]
      rfl
    · have hsub : StateVec.Spec.Live w.mem.vectors (.sub (.basic l.continuous) 0 nq) :=
        ⟨hlive, by omega, by omega, by simp only [StateVec.Spec.range]; omega⟩
      rw [Layout.context, copyToVector_ok hsub]
      simp only [StateVec.Spec.contents, StateVec.Spec.range, hval']
      simp
    · have hsub : StateVec.Spec.Live w.mem.vectors (.sub (.basic l.continuous) nq nv) :=
        ⟨hlive, by omega, by omega, by simp only [StateVec.Spec.range]; omega⟩
      rw [Layout.context, copyToVector_ok hsub]
      simp only [StateVec.Spec.contents, StateVec.Spec.range, hval']
      simp
    · have hsub : StateVec.Spec.Live w.mem.vectors (.sub (.basic l.continuous) (nq + nv) nz) :=
        ⟨hlive, by omega, by omega, by simp only [StateVec.Spec.range]; omega⟩
      rw [Layout.context, copyToVector_ok hsub]
      simp only [StateVec.Spec.contents, StateVec.Spec.range, hval']
      have : ((nq : Int) + nv).toNat = nq + nv := by omega
      simp only [Nat.zero_add, this, Int.toNat_natCast]
      rw [List.take_of_length_le (by simp; omega)]
  · exact absurd hx (n2 _ _ _ _ _)

/-! ### Defaults -/

/-- The object an operation writes to. -/
def writesTo : LeafDefaults.Op K V → Option Nat
  | .newVector _ | .newValue _ | .newSystem | .allocate _ | .create _ => none
  | .setVector i _ | .setValue i _ _ | .declareContinuous i _ _ _ _ | .declareMisc i _ | .declareContinuousSizes i _ _ _
  | .declareDiscrete i _ | .declareDiscreteSize i _ | .declareAbstract i _ | .declareNumeric i _ | .declareParameter i _ => some i
  | .setDefault _ j => some j
  | .setDefaultState _ _ k | .setDefaultParameters _ _ k => some k
  | .setContinuous i _ | .setDiscrete i _ _ | .setAbstract i _ _ _ | .setNumeric i _ _ | .setParameter i _ _ _ => some i

theorem written_others (ps : List (Plain K V)) {i j : Nat} (p : Plain K V) (e : Option Err) (h : i ≠ j) :
    (written ps i p e).1[j]? = ps[j]? := by
  rw [written_fst, List.getElem?_set_ne h]

/-- C141: nothing but the object an operation is called on changes: writing to a context changes no other context and no declaration,
writing to a vector or a value that was declared does not change the declaration, and declarations do not change contexts. -/
theorem other_objects_unchanged [Zero K] (armed : Bool) (ps : List (Plain K V)) (op : LeafDefaults.Op K V) (j : Nat)
    (hj : j < ps.length) (hn : writesTo op ≠ some j) : (meant armed ps op).1[j]? = ps[j]? := by
  have hadd : ∀ p : Plain K V, (added ps p).1[j]? = ps[j]? := fun p => List.getElem?_append_left hj
  have hset : ∀ {i : Nat} (p : Plain K V) (n : Int), some i ≠ some j → (declared ps i p n).1[j]? = ps[j]? := fun p n h =>
    List.getElem?_set_ne fun e => h (by rw [e])
  have hwr : ∀ {i : Nat} (p : Plain K V) (e : Option Err), some i ≠ some j → (written ps i p e).1[j]? = ps[j]? := fun p e h =>
    written_others ps p e fun e => h (by rw [e])
  have hmade : ∀ i, (meant.made ps i).1[j]? = ps[j]? := by
    intro i
    rw [meant.made]
    split
    · split
      · exact hadd _
      · rfl
    · rfl
  cases op <;> simp only [writesTo] at hn <;> simp only [meant]
  case newVector => exact hadd _
  case newValue => exact hadd _
  case newSystem => exact hadd _
  case allocate => exact hmade _
  case create => exact hmade _
  all_goals
    split
    · first
        | exact hwr _ _ hn
        | exact hset _ _ hn
        | (split
           · first
               | exact hwr _ _ hn
               | exact hset _ _ hn
           · rfl)
    · rfl

/-- What does not change about the values of a context: how many there are of each kind, their sizes and their types. -/
def SameShape (x y : Data K V) : Prop :=
  x.continuous.length = y.continuous.length ∧ x.discrete.map List.length = y.discrete.map List.length ∧
    x.abstract.map (·.type) = y.abstract.map (·.type) ∧ x.numeric.map List.length = y.numeric.map List.length ∧
    x.parameters.map (·.type) = y.parameters.map (·.type)

theorem sameShape_refl (x : Data K V) : SameShape x x := ⟨rfl, rfl, rfl, rfl, rfl⟩

theorem sameShape_trans {x y z : Data K V} (h : SameShape x y) (h' : SameShape y z) : SameShape x z :=
  ⟨h.1.trans h'.1, h.2.1.trans h'.2.1, h.2.2.1.trans h'.2.2.1, h.2.2.2.1.trans h'.2.2.2.1, h.2.2.2.2.trans h'.2.2.2.2⟩

theorem map_eq_of_prefix {α β : Type} (f : α → β) {xs ys : List α} (h : xs.map f <+: ys.map f) (hl : xs.length = ys.length) :
    xs.map f = ys.map f :=
  h.eq_of_length (by simpa using hl)

theorem withState_shape (armed : Bool) {d x : Data K V} (hf : Fits d x) : SameShape x (x.withState armed d).1 := by
  unfold Data.withState
  split
  · exact sameShape_refl x
  rename_i h1
  split
  · exact ⟨not_not.1 h1, rfl, rfl, rfl, rfl⟩
  rename_i h2
  have h3 := map_eq_of_prefix _ hf.discrete (not_not.1 h2)
  split
  · exact ⟨not_not.1 h1, h3, rfl, rfl, rfl⟩
  · exact ⟨not_not.1 h1, h3, (take_map_eq _ hf.abstract).symm, rfl, rfl⟩

theorem withParameters_shape {d x : Data K V} (hf : Fits d x) : SameShape x (x.withParameters d) :=
  ⟨rfl, rfl, rfl, (take_map_eq _ hf.numeric).symm, (take_map_eq _ hf.parameters).symm⟩

theorem withDefaults_shape (armed : Bool) {d x : Data K V} (hf : Fits d x) : SameShape x (x.withDefaults armed d).1 := by
  have h1 := withState_shape armed hf
  have h2 := withState_good (S := fun _ => True) armed hf (by simp [AllIn]) (by simp [AllIn])
  unfold Data.withDefaults
  generalize x.withState armed d = r at h1 h2
  obtain ⟨y, e⟩ := r
  cases e with
  | none => exact sameShape_trans h1 (withParameters_shape h2.2.1)
  | some e => exact h1

theorem step_shape [Zero K] {S : CType → Prop} (armed : Bool) {ps : List (Plain K V)} (hw : WF S ps) (op : LeafDefaults.Op K V)
    {c s nq nv nz : Nat} {x : Data K V} (hc : ps[c]? = some (.context s nq nv nz x)) :
    ∃ y, (meant armed ps op).1[c]? = some (.context s nq nv nz y) ∧ SameShape x y := by
  have hl := (List.getElem?_eq_some_iff.1 hc).1
  by_cases hn : writesTo op = some c
  swap
  · exact ⟨x, by rw [other_objects_unchanged armed ps op c hl hn]; exact hc, sameShape_refl x⟩
  have same : ∀ e : Except Err Int, ∃ y, ((ps, e) : List (Plain K V) × Except Err Int).1[c]? = some (.context s nq nv nz y) ∧
      SameShape x y := fun e => ⟨x, hc, sameShape_refl x⟩
  have wr : ∀ (y : Data K V) (e : Option Err), SameShape x y → ∃ z, (written ps c (.context s nq nv nz y) e).1[c]? =
      some (.context s nq nv nz z) ∧ SameShape x z := fun y e h => ⟨y, by rw [written_fst, List.getElem?_set_self hl], h⟩
  have fits : ∀ {a b d : Int} {u : Data K V}, ps[s]? = some (.system a b d u) → Fits u x := by
    intro a b d u hu
    obtain ⟨_, _, _, _, _, _, h3, h4⟩ := hw c _ hc
    rw [hu] at h3
    injection h3 with h3
    injection h3 with _ _ _ h3
    subst h3
    exact h4
  cases op <;> simp only [writesTo, Option.some.injEq, reduceCtorEq] at hn
  all_goals subst hn
  case setDefault i j =>
    simp only [meant, hc]
    split
    · rename_i d _ _ _ _ _ hi hj
      injection hj with hj
      injection hj with q1 q2 q3 q4 q5
      subst q1 q2 q3 q4 q5
      split
      · rename_i e
        subst e
        exact wr _ _ (withDefaults_shape armed (fits hi))
      · exact same _
    · exact same _
  case setDefaultState i k j =>
    simp only [meant, hc]
    split
    · rename_i d _ _ _ _ _ _ _ _ _ _ hi hk hj
      injection hj with hj
      injection hj with q1 q2 q3 q4 q5
      subst q1 q2 q3 q4 q5
      split
      · rename_i e
        obtain ⟨_, e⟩ := e
        subst e
        exact wr _ _ (withState_shape armed (fits hi))
      · exact same _
    · exact same _
  case setDefaultParameters i k j =>
    simp only [meant, hc]
    split
    · rename_i d _ _ _ _ _ _ _ _ _ _ hi hk hj
      injection hj with hj
      injection hj with q1 q2 q3 q4 q5
      subst q1 q2 q3 q4 q5
      split
      · rename_i e
        obtain ⟨_, e⟩ := e
        subst e
        exact wr _ _ (withParameters_shape (fits hi))
      · exact same _
    · exact same _
  case setContinuous i xs =>
    simp only [meant, hc]
    split
    · rename_i hlx
      exact wr _ _ ⟨hlx.symm, rfl, rfl, rfl, rfl⟩
    · exact same _
  case setDiscrete i g xs =>
    simp only [meant, hc]
    exact wr _ _ ⟨rfl, (replacedGroup_map _ _ _).symm, rfl, rfl, rfl⟩
  case setAbstract i g t v =>
    simp only [meant, hc]
    exact wr _ _ ⟨rfl, rfl, (replacedAbstract_map _ _ _ _ _).symm, rfl, rfl⟩
  case setNumeric i g xs =>
    simp only [meant, hc]
    exact wr _ _ ⟨rfl, rfl, rfl, (replacedGroup_map _ _ _).symm, rfl⟩
  case setParameter i g t v =>
    simp only [meant, hc]
    exact wr _ _ ⟨rfl, rfl, rfl, rfl, (replacedAbstract_map _ _ _ _ _).symm⟩
  all_goals
    simp only [meant, hc]
    exact ⟨x, rfl, sameShape_refl x⟩

theorem run_shape [Zero K] {S : CType → Prop} (armed : Bool) {ps : List (Plain K V)} (hw : WF S ps) (ops : List (LeafDefaults.Op K V))
    (ho : ∀ o ∈ ops, TypesIn S o) {c s nq nv nz : Nat} {x : Data K V} (hc : ps[c]? = some (.context s nq nv nz x)) :
    (∃ y, (meantRun armed ps ops).1[c]? = some (.context s nq nv nz y) ∧ SameShape x y) ∧ WF S (meantRun armed ps ops).1 := by
  induction ops generalizing ps x with
  | nil => exact ⟨⟨x, hc, sameShape_refl x⟩, hw⟩
  | cons o os ih =>
    obtain ⟨y, h1, h2⟩ := step_shape armed hw o hc
    have h3 := meant_wf (armed := armed) hw (ho o (by simp))
    obtain ⟨⟨z, h4, h5⟩, h6⟩ := ih h3 (fun o' h => ho o' (by simp [h])) h1
    rw [meantRun]
    split
    · exact ⟨⟨y, h1, h2⟩, h3⟩
    · exact ⟨⟨y, h1, h2⟩, h3⟩
    · exact ⟨⟨z, h4, sameShape_trans h2 h5⟩, h6⟩

theorem empty_wf (S : CType → Prop) : WF S ([] : List (Plain K V)) := by
  intro i p h
  simp at h

theorem reached_wf [Zero K] (armed : Bool) (ops : List (LeafDefaults.Op K V)) :
    ∀ {ps : List (Plain K V)}, WF (fun _ => True) ps → WF (fun _ => True) (meantRun armed ps ops).1 := by
  have any : ∀ o : LeafDefaults.Op K V, TypesIn (fun _ => True) o := fun o => by cases o <;> trivial
  induction ops with
  | nil => exact fun h => h
  | cons o os ih =>
    intro ps h
    have h3 := meant_wf (armed := armed) h (any o)
    rw [meantRun]
    split
    · exact h3
    · exact h3
    · exact ih h3

/-- C141: whatever is done, a context stays the context of its system, with the same numbers of variables and parameters, and the same
sizes and types of them. -/
theorem context_shape_kept [Zero K] (armed : Bool) (before after : List (LeafDefaults.Op K V)) {c s nq nv nz : Nat} {x : Data K V}
    (hc : (meantRun armed [] before).1[c]? = some (.context s nq nv nz x)) :
    ∃ y, (meantRun armed (meantRun armed [] before).1 after).1[c]? = some (.context s nq nv nz y) ∧ SameShape x y :=
  (run_shape armed (reached_wf armed before (empty_wf _)) after (fun o _ => by cases o <;> trivial) hc).1

theorem run_system [Zero K] (armed : Bool) {ps : List (Plain K V)} (ops : List (LeafDefaults.Op K V)) {s : Nat} (hs : s < ps.length)
    (hn : ∀ o ∈ ops, writesTo o ≠ some s) : (meantRun armed ps ops).1[s]? = ps[s]? := by
  induction ops generalizing ps with
  | nil => rfl
  | cons o os ih =>
    have h1 := other_objects_unchanged armed ps o s hs (hn o (by simp))
    rw [meantRun]
    split
    · exact h1
    · exact h1
    · rw [ih _ fun o' h => hn o' (by simp [h])]
      · exact h1
      · cases hp : ps[s]? with
        | none =>
          rw [List.getElem?_eq_none_iff] at hp
          omega
        | some p =>
          rw [hp] at h1
          exact (List.getElem?_eq_some_iff.1 h1).1

/-- C141: a new context has the values the system has declared by then, and the name of the system; whatever is then done, as long as
nothing more is declared for the system, `SetDefaultContext` succeeds and sets all of them back to these values, and nothing else. -/
theorem defaults_restored [Zero K] (armed : Bool) (before after : List (LeafDefaults.Op K V)) {s c : Nat}
    (hcr : (meant armed (meantRun armed [] before).1 (.create s)).2 = .ok (c : Int))
    (hsys : ∃ nq nv nz d, (meantRun armed [] before).1[s]? = some (.system nq nv nz d))
    (hn : ∀ o ∈ after, writesTo o ≠ some s) :
    ∃ (nq nv nz : Nat) (d : Data K V),
      (meantRun armed [] before).1[s]? = some (.system nq nv nz d) ∧
      (meant armed (meantRun armed [] before).1 (.create s)).1[c]? = some (.context s nq nv nz d) ∧
      meant armed (meantRun armed (meant armed (meantRun armed [] before).1 (.create s)).1 after).1 (.setDefault s c) =
        ((meantRun armed (meant armed (meantRun armed [] before).1 (.create s)).1 after).1.set c (.context s nq nv nz d), .ok 0) := by
  obtain ⟨nq, nv, nz, d, hs⟩ := hsys
  have hw := reached_wf (K := K) (V := V) armed before (empty_wf _)
  generalize (meantRun armed [] before).1 = ps at hcr hs hw
  have hw1 := meant_wf (armed := armed) hw (op := .create s) trivial
  simp only [meant, meant.made, hs] at hcr hw1 ⊢
  by_cases hp : 0 ≤ nv ∧ nv ≤ nq ∧ 0 ≤ nz
  swap
  · rw [if_neg hp] at hcr
    cases hcr
  rw [if_pos hp] at hcr hw1 ⊢
  simp only [added, Except.ok.injEq, Int.natCast_inj] at hcr hw1 ⊢
  subst hcr
  have hsl := (List.getElem?_eq_some_iff.1 hs).1
  have hc : (ps ++ [Plain.context s nq.toNat nv.toNat nz.toNat d])[ps.length]? = some (.context s nq.toNat nv.toNat nz.toNat d) := by simp
  refine ⟨nq.toNat, nv.toNat, nz.toNat, d, ?_, hc, ?_⟩
  · rw [Int.toNat_of_nonneg hp.1, Int.toNat_of_nonneg hp.2.2, Int.toNat_of_nonneg (le_trans hp.1 hp.2.1)]
  obtain ⟨⟨y, h1, h2⟩, -⟩ := run_shape armed hw1 after (fun o _ => by cases o <;> trivial) hc
  have h3 := run_system armed (ps := ps ++ [Plain.context s nq.toNat nv.toNat nz.toNat d]) after (by simp; omega) hn
  rw [List.getElem?_append_left hsl, hs] at h3
  rw [h3, h1]
  dsimp only
  have hd1 : d.discrete.length = y.discrete.length := by simpa using congrArg List.length h2.2.1
  have hd2 : d.abstract.length = y.abstract.length := by simpa using congrArg List.length h2.2.2.1
  have hd3 : d.numeric.length = y.numeric.length := by simpa using congrArg List.length h2.2.2.2.1
  have hd4 : d.parameters.length = y.parameters.length := by simpa using congrArg List.length h2.2.2.2.2
  have hwd : y.withDefaults armed d = (d, none) := by
    simp only [Data.withDefaults, Data.withState, Data.withParameters, h2.1, hd1, ← hd2, ← hd3, ← hd4, ne_eq, not_true_eq_false,
      if_false, and_false, List.take_length]
  rw [if_pos rfl, hwd]
  rfl

/-- C141: a context made before more continuous or discrete variables were declared can not be set to the defaults: the process aborts,
or there is an exception. -/
theorem late_declarations_fail (armed : Bool) (x d : Data K V)
    (h : x.continuous.length ≠ d.continuous.length ∨ x.discrete.length ≠ d.discrete.length) : (x.withDefaults armed d).2 ≠ none := by
  unfold Data.withDefaults Data.withState
  by_cases h1 : x.continuous.length = d.continuous.length
  · rw [if_neg (not_not.2 h1), if_pos (h.resolve_left (not_not.2 h1))]
    simp
  · rw [if_pos h1]
    simp

/-- C141: sizes of positions, velocities and others that no context can have are accepted when they are declared; making a context throws. -/
theorem bad_partition_accepted [Zero K] (armed : Bool) (ps : List (Plain K V)) {i j : Nat} {a b c : Int} {d : Data K V} {xs : List K}
    (hi : ps[i]? = some (.system a b c d)) (hj : ps[j]? = some (.vector xs)) (nq nv nz : Int)
    (hs : (xs.length : Int) = nq + nv + nz) (hbad : nv < 0 ∨ nq < nv ∨ nz < 0) :
    (meant armed ps (.declareContinuous i j nq nv nz)).2 = .ok 0 ∧
      (meant armed (meant armed ps (.declareContinuous i j nq nv nz)).1 (.create i)).2 = .error .throws := by
  have hl := (List.getElem?_eq_some_iff.1 hi).1
  simp only [meant, hi, hj, if_pos hs, declared]
  refine ⟨trivial, ?_⟩
  simp only [meant.made, List.getElem?_set_self hl]
  rw [if_neg (by omega)]

/-! ### Model values -/

/-- C141: a model is found under the index it was added with, the earlier ones under theirs, and nothing is found elsewhere; an index that
was used or skipped can not be used again. -/
theorem models_found (ms : Models) (index : Int) (a : Option Nat) :
    (index < ms.length → ms.add index a = .error .aborts) ∧
    (ms.length ≤ index → ∃ ms', ms.add index a = .ok ms' ∧ (ms'.length : Int) = index + 1 ∧ ms'.find index = .ok a ∧
      (∀ i : Nat, (i : Int) < ms.length → ms'.find i = ms.find i) ∧
      (∀ i : Nat, (ms.length : Int) ≤ i → (i : Int) ≠ index → ms'.find i = .ok none) ∧
      ∀ i : Nat, (i : Int) < ms'.length → ms'.add i a = .error .aborts) := by
  have habort : ∀ (ms : Models) (i : Int), i < ms.length → ms.add i a = .error .aborts := by
    intro ms i hi
    rw [Models.add, if_neg (by omega)]
  refine ⟨habort ms index, fun h => ?_⟩
  obtain ⟨n, rfl⟩ : ∃ n : Nat, index = n := ⟨index.toNat, by omega⟩
  have hn : ms.length ≤ n := by omega
  have hfind : ∀ (l : Models) (i : Nat), l.find i = .ok (l.getD i none) := by
    intro l i
    rw [Models.find]
    by_cases hi : (i : Int) < l.length
    · rw [if_pos hi, if_neg (by omega)]
      simp
    · rw [if_neg hi, List.getD_eq_getElem?_getD, List.getElem?_eq_none (by omega)]
      rfl
  refine ⟨ms ++ List.replicate (n - ms.length) none ++ [a], ?_, ?_, ?_, ?_, ?_, ?_⟩
  · rw [Models.add, if_pos (by omega)]
    simp
  · simp
    omega
  · rw [hfind, List.getD_eq_getElem?_getD, List.getElem?_append_right (by simp; omega)]
    have : n - (ms ++ List.replicate (n - ms.length) (none : Option Nat)).length = 0 := by
      simp
      omega
    rw [this]
    rfl
  · intro i hi
    rw [hfind, hfind, List.getD_eq_getElem?_getD, List.getD_eq_getElem?_getD, List.append_assoc, List.getElem?_append_left (by omega)]
  · intro i hi hne
    have hne' : i ≠ n := by omega
    rw [hfind, List.getD_eq_getElem?_getD]
    by_cases hin : i < n
    · rw [List.getElem?_append_left (by simp; omega), List.getElem?_append_right (by omega), List.getElem?_replicate]
      split <;> rfl
    · rw [List.getElem?_eq_none (by simp; omega)]
      rfl
  · intro i hi
    exact habort _ _ hi

/-! ### Examples -/

/-- Types of values. -/
def leafInt : CType := .plain [.char 'i']
def leafBool : CType := .plain [.char 'b']
def leafHash (t : CType) : BitVec 64 := if t = leafInt then 5#64 else if t = leafBool then 7#64 else 0#64

/-- A system with positions, velocities and others, a group of discrete variables, an abstract variable and parameters; two contexts; one of
them is changed, like the vectors of the program, and set back. -/
def leafHistory : List (LeafDefaults.Op ℚ Nat) :=
  [.newSystem, .newVector [1, 2, 3, 4], .newVector [5, 6], .newValue ⟨leafInt, 7⟩,
    .declareContinuous 0 1 2 1 1, .declareDiscrete 0 2, .declareDiscreteSize 0 3, .declareAbstract 0 3, .declareNumeric 0 2,
    .declareParameter 0 3, .setVector 1 [0, 0, 0, 0], .setVector 2 [1], .setValue 3 leafInt 8, .create 0, .allocate 0,
    .setContinuous 4 [9, 9, 9, 9], .setDiscrete 4 1 [4, 4, 4], .setDiscrete 4 2 [1], .setAbstract 4 0 leafBool 1, .setAbstract 4 0 leafInt 1,
    .setNumeric 4 0 [8, 8], .setParameter 4 0 leafInt 2, .newSystem, .setDefault 6 4, .setDefault 0 4, .setDefaultState 0 4 5]

example : (nothingDeclared.run true leafHash leafHistory).2 =
    [.ok 0, .ok 1, .ok 2, .ok 3, .ok 0, .ok 0, .ok 1, .ok 0, .ok 0, .ok 0, .ok 0, .error .outOfRange, .ok 0, .ok 4, .ok 5,
      .ok 0, .ok 0, .error .throws, .error .throws, .ok 0, .ok 0, .ok 0, .ok 6, .error .throws, .ok 0, .ok 0] := by decide +kernel

example : (meantRun true [] leafHistory).1[4]? = some (.context 0 2 1 1
    ⟨[1, 2, 3, 4], [[5, 6], [0, 0, 0]], [⟨leafInt, 7⟩], [[5, 6]], [⟨leafInt, 7⟩]⟩) := by decide +kernel

example : (meantRun true [] (leafHistory.take 22)).1[4]? = some (.context 0 2 1 1
    ⟨[9, 9, 9, 9], [[5, 6], [4, 4, 4]], [⟨leafInt, 1⟩], [[8, 8]], [⟨leafInt, 2⟩]⟩) := by decide +kernel

/-- The hypotheses of the history are met. -/
example : ∀ o ∈ leafHistory, TypesIn (fun t => t = leafInt ∨ t = leafBool) o := by
  simp [leafHistory, TypesIn]

example : ∀ t u, (t = leafInt ∨ t = leafBool) → (u = leafInt ∨ u = leafBool) → leafHash t ≠ 0#64 → leafHash t = leafHash u → t = u := by
  rintro t u (rfl | rfl) (rfl | rfl) <;> decide +kernel

/-- The hypotheses of `defaults_restored` are met: the context 4, and what is done with it. -/
example : (meant true (meantRun true [] (leafHistory.take 13)).1 (.create 0)).2 = .ok 4 ∧
    (∃ nq nv nz d, (meantRun true [] (leafHistory.take 13)).1[0]? = some (.system nq nv nz d)) ∧
    ∀ o ∈ (leafHistory.drop 14).take 9, writesTo o ≠ some 0 := by
  refine ⟨by decide +kernel, ?_, by simp [leafHistory, writesTo]⟩
  exact ⟨2, 1, 1, ⟨[1, 2, 3, 4], [[5, 6], [0, 0, 0]], [⟨leafInt, 7⟩], [[5, 6]], [⟨leafInt, 7⟩]⟩, by decide +kernel⟩

/-- Declaring more after a context was made: one more group of discrete variables aborts, one more parameter does not matter. -/
example : (nothingDeclared.run true leafHash (leafHistory ++ [.declareNumeric 0 1, .setDefault 0 4, .declareDiscrete 0 1, .setDefault 0 4])).2.drop 26 =
    [.ok 1, .ok 0, .ok 2, .error .aborts] := by decide +kernel

/-- Two positions and three velocities. -/
example : (nothingDeclared.run true leafHash ([.newSystem, .newVector [1, 2, 3, 4, 5], .declareContinuous 0 1 2 3 0, .create 0] : List (LeafDefaults.Op ℚ Nat))).2 =
    [.ok 0, .ok 1, .ok 0, .error .throws] := by decide +kernel

example : Models.add [some 4] 3 (some 9) = .ok [some 4, none, none, some 9] ∧ Models.find [some 4, none, none, some 9] 2 = .ok none := by
  decide +kernel

end Maliput.Props
