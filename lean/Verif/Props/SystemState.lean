import Verif.Lemmas.SystemStateHistory
import Mathlib.Data.Rat.Defs

set_option autoImplicit false

/-! C139: the states of systems: continuous, discrete and abstract variables, copies and clones. -/
namespace Maliput.Props
open Maliput Maliput.StateVec Maliput.TypeErasure Maliput.SysState Maliput.SysState.Spec

variable {K V : Type}

/-! ### Histories -/

/-- C139: whatever is done with states that have nothing in common, they are values of their own: clones are equal to the original when
they are made, and every operation has the result and throws the exception it has for plain values.  Without assertions this takes
that the types that have a hash have different hashes. -/
theorem states_history {armed : Bool} {hash : CType → BitVec 64} {S : CType → Prop}
    (ht : armed = true ∨ ∀ t u, S t → S u → hash t ≠ 0#64 → hash t = hash u → t = u) {w : SysState.World K V}
    {ps : List (Plain K V)} (hr : Refines w ps) (hs : TypesIn S ps) (ops : List (SysState.Op K V)) (hv : AllValid ps ops)
    (ho : ∀ o ∈ ops, SysState.Spec.Op.TypesIn S o) :
    ∃ w', w.run armed hash ops = (w', (meantRun ps ops).2) ∧ Refines w' (meantRun ps ops).1 :=
  run_ok ht hr hs ops hv ho

/-- C139: what is read from a state is its value: all continuous variables and the three kinds of them, every group of discrete
variables, an exception for groups it does not have, and every abstract value. -/
theorem state_reads {w : SysState.World K V} {ps : List (Plain K V)} (hr : Refines w ps) {i : Nat} {p : Plain K V}
    (hp : ps[i]? = some p) : ∃ s : State, w.states[i]? = some s ∧
      s.continuous.state.copyToVector w.mem.vectors = .ok (p.q ++ p.v ++ p.z) ∧
      s.continuous.q.copyToVector w.mem.vectors = .ok p.q ∧
      s.continuous.v.copyToVector w.mem.vectors = .ok p.v ∧
      s.continuous.z.copyToVector w.mem.vectors = .ok p.z ∧
      (∀ g : Int, (s.discrete.getVector g).map (valuesAt w.mem.vectors) =
        if 0 ≤ g then (match p.discrete[g.toNat]? with | some xs => .ok xs | none => .error .throws) else .error .throws) ∧
      ∀ (armed : Bool) (k : Nat), k < p.abstract.length →
        ∃ a, s.abstract.getValue armed k = .ok a ∧ w.mem.values[a]? = p.abstract[k]? := by
  obtain ⟨ls, hls, ha, hl, hh⟩ := hr
  have hi : i < ls.length := by
    rw [hl]
    exact (List.getElem?_eq_some_iff.1 hp).1
  have hs : ∃ l : Layout, ls[i]? = some l ∧ Holds w.mem l p :=
    ⟨ls[i], List.getElem?_eq_getElem hi, hh i ls[i] p (List.getElem?_eq_getElem hi) hp⟩
  obtain ⟨l, hli, hH⟩ := hs
  have e1 := hH.nq; have e2 := hH.nv; have e3 := hH.nz
  have hval := valuesAt_some hH.continuous
  have hval' := hval
  rw [valuesAt] at hval'
  have hlive : StateVec.Spec.Live w.mem.vectors (.basic l.continuous) := (List.getElem?_eq_some_iff.1 hH.continuous).1
  have hlen : (w.mem.vectors.getD l.continuous []).length = l.nq + l.nv + l.nz := by
    rw [hval']
    simp
    omega
  refine ⟨l.state, by rw [hls]; simp [hli], ?_, ?_, ?_, ?_, ?_, ?_⟩
  · rw [← hval]
    rfl
  · have hsub : StateVec.Spec.Live w.mem.vectors (.sub (.basic l.continuous) 0 l.nq) :=
      ⟨hlive, by omega, by omega, by simp only [StateVec.Spec.range]; omega⟩
    rw [Layout.state, copyToVector_ok hsub]
    simp only [StateVec.Spec.contents, StateVec.Spec.range, hval']
    simp [← e1]
  · have hsub : StateVec.Spec.Live w.mem.vectors (.sub (.basic l.continuous) l.nq l.nv) :=
      ⟨hlive, by omega, by omega, by simp only [StateVec.Spec.range]; omega⟩
    rw [Layout.state, copyToVector_ok hsub]
    simp only [StateVec.Spec.contents, StateVec.Spec.range, hval']
    simp [← e1, ← e2]
  · have hsub : StateVec.Spec.Live w.mem.vectors (.sub (.basic l.continuous) (l.nq + l.nv) l.nz) :=
      ⟨hlive, by omega, by omega, by simp only [StateVec.Spec.range]; omega⟩
    rw [Layout.state, copyToVector_ok hsub]
    simp only [StateVec.Spec.contents, StateVec.Spec.range, hval']
    have : ((l.nq : Int) + l.nv).toNat = p.q.length + p.v.length := by omega
    simp only [Nat.zero_add, this, List.append_assoc]
    rw [← List.drop_drop, List.drop_left, List.drop_left]
    simp [← e3]
  · intro g
    have hld : l.discrete.length = p.discrete.length := by simpa using congrArg List.length hH.discrete
    simp only [Layout.state, Discrete.getVector, throwUnless]
    by_cases hg : 0 ≤ g
    · rw [if_pos hg]
      by_cases hg' : g.toNat < l.discrete.length
      · obtain ⟨x, hx1, hx2⟩ := map_getElem hH.discrete hg'
        have : 0 ≤ g ∧ g < l.discrete.length := by omega
        simp only [this, and_self, decide_true, if_true, bind, Except.bind, List.getElem?_eq_getElem hg', hx2]
        rw [Except.map, valuesAt_some hx1]
      · have : ¬(0 ≤ g ∧ g < l.discrete.length) := by omega
        have hnone : p.discrete[g.toNat]? = none := List.getElem?_eq_none (by omega)
        simp only [hnone, this, decide_false, Bool.false_eq_true, if_false, bind, Except.bind]
        rfl
    · rw [if_neg hg]
      have : ¬(0 ≤ g ∧ g < l.discrete.length) := by omega
      simp only [this, decide_false, Bool.false_eq_true, if_false, bind, Except.bind]
      rfl
  · intro armed k hk
    have hla : l.abstract.length = p.abstract.length := by simpa using congrArg List.length hH.abstract
    obtain ⟨x, hx1, hx2⟩ := map_getElem hH.abstract (hla ▸ hk)
    exact ⟨_, getValue_some l.abstract (hla ▸ hk), by rw [hx1, hx2]⟩

/-- The state an operation writes to. -/
def target : SysState.Op K V → Option Nat
  | .clone _ => none
  | .setFrom i _ => some i
  | .setContinuous i _ => some i
  | .setDiscrete i _ _ => some i
  | .setAbstract i _ _ _ => some i

/-- C139: an operation changes at most the state it is called on; in particular a clone and its original do not see what is written
to the other one. -/
theorem others_unchanged (ps : List (Plain K V)) (op : SysState.Op K V) (j : Nat) (hj : j < ps.length) (hn : target op ≠ some j) :
    (meant ps op).1[j]? = ps[j]? := by
  cases op with
  | clone i =>
    rw [meant]
    split
    · rw [List.getElem?_append_left hj]
    · rfl
  | setFrom i k =>
    have hi : i ≠ j := fun h => hn (by rw [target, h])
    rw [meant]
    split
    · rw [List.getElem?_set_ne hi]
    · rfl
  | setContinuous i xs =>
    have hi : i ≠ j := fun h => hn (by rw [target, h])
    rw [meant]
    split
    · split
      · rw [List.getElem?_set_ne hi]
      · rfl
    · rfl
  | setDiscrete i g xs =>
    have hi : i ≠ j := fun h => hn (by rw [target, h])
    rw [meant]
    split
    · split
      · split
        · rw [List.getElem?_set_ne hi]
        · rfl
      · rfl
    · rfl
  | setAbstract i k t x =>
    have hi : i ≠ j := fun h => hn (by rw [target, h])
    rw [meant]
    split
    · split
      · rw [List.getElem?_set_ne hi]
      · rfl
    · rfl

/-- C139: copying a list of entries succeeds if and only if all fit, and then the copies are equal; otherwise the entries before the
first one that does not fit are copies and the others are what they were. -/
theorem copied_outcome {α : Type} (fits : α → α → Bool) (xs ys : List α) (hl : xs.length = ys.length) :
    ((∀ a ∈ xs.zip ys, fits a.1 a.2 = true) ∧ copied fits xs ys = (ys, none)) ∨
    ∃ k, ∃ h : k < xs.length, (∀ a ∈ (xs.zip ys).take k, fits a.1 a.2 = true) ∧ fits xs[k] ys[k] = false ∧
      copied fits xs ys = (ys.take k ++ xs.drop k, some .throws) := by
  induction xs generalizing ys with
  | nil =>
    cases ys with
    | nil => left; simp [copied]
    | cons y ys => simp at hl
  | cons x xs ih =>
    cases ys with
    | nil => simp at hl
    | cons y ys =>
      rw [copied]
      by_cases hf : fits x y = true
      · rw [if_pos hf]
        rcases ih ys (by simpa using hl) with ⟨h1, h2⟩ | ⟨k, hk, h1, h2, h3⟩
        · left
          refine ⟨?_, by rw [h2]⟩
          intro a ha
          rw [List.zip_cons_cons] at ha
          rcases List.mem_cons.1 ha with rfl | ha
          · exact hf
          · exact h1 a ha
        · right
          refine ⟨k + 1, by simpa using hk, ?_, by simpa using h2, by rw [h3]; simp⟩
          intro a ha
          rw [List.zip_cons_cons, List.take_succ_cons] at ha
          rcases List.mem_cons.1 ha with rfl | ha
          · exact hf
          · exact h1 a ha
      · rw [if_neg hf]
        right
        exact ⟨0, by simp, by simp, by simpa using hf, by simp⟩

/-- The states have the same numbers of variables of each kind, and abstract values of the same types. -/
def Alike (p o : Plain K V) : Prop :=
  p.q.length = o.q.length ∧ p.v.length = o.v.length ∧ p.z.length = o.z.length ∧
    p.discrete.map List.length = o.discrete.map List.length ∧ p.abstract.map (·.type) = o.abstract.map (·.type)

theorem fits_map {α β : Type} [DecidableEq β] (f : α → β) (xs ys : List α) (hl : xs.length = ys.length) :
    (∀ a ∈ xs.zip ys, (f a.1 == f a.2) = true) ↔ xs.map f = ys.map f := by
  induction xs generalizing ys with
  | nil =>
    cases ys with
    | nil => simp
    | cons y ys => simp at hl
  | cons x xs ih =>
    cases ys with
    | nil => simp at hl
    | cons y ys =>
      simp only [List.zip_cons_cons, List.mem_cons, forall_eq_or_imp, List.map_cons, List.cons.injEq]
      rw [ih ys (by simpa using hl)]
      simp

/-- C139: `SetFrom` succeeds if and only if the states are alike, and then the state is equal to the other one. -/
theorem set_from_outcome (p o : Plain K V) (ha : p.abstract.length = o.abstract.length) :
    (Alike p o ∧ p.setFrom o = (o, none)) ∨ ¬Alike p o ∧ (p.setFrom o).2 = some .throws := by
  unfold Plain.setFrom
  by_cases hc : p.q.length = o.q.length ∧ p.v.length = o.v.length ∧ p.z.length = o.z.length
  swap
  · rw [if_neg hc]
    exact .inr ⟨fun h => hc ⟨h.1, h.2.1, h.2.2.1⟩, rfl⟩
  rw [if_pos hc]
  by_cases hd : p.discrete.length = o.discrete.length
  swap
  · rw [if_neg hd]
    exact .inr ⟨fun h => hd (by simpa using congrArg List.length h.2.2.2.1), rfl⟩
  rw [if_pos hd]
  rcases copied_outcome sameSize p.discrete o.discrete hd with ⟨h1, h2⟩ | ⟨k, hk, h1, h2, h3⟩
  · rw [h2]
    dsimp only
    have h1' := (fits_map List.length p.discrete o.discrete hd).1 h1
    rcases copied_outcome sameType p.abstract o.abstract ha with ⟨g1, g2⟩ | ⟨k, hk, g1, g2, g3⟩
    · rw [g2]
      exact .inl ⟨⟨hc.1, hc.2.1, hc.2.2, h1', (fits_map _ _ _ ha).1 g1⟩, rfl⟩
    · rw [g3]
      refine .inr ⟨fun h => ?_, rfl⟩
      have := (fits_map (fun x : Value V => x.type) p.abstract o.abstract ha).2 h.2.2.2.2 (p.abstract[k], o.abstract[k])
        (by rw [List.mem_iff_getElem]; exact ⟨k, by simp; omega, by simp⟩)
      rw [sameType] at g2
      rw [g2] at this
      cases this
  · rw [h3]
    refine .inr ⟨fun h => ?_, rfl⟩
    have := (fits_map List.length p.discrete o.discrete hd).2 h.2.2.2.1 (p.discrete[k], o.discrete[k])
      (by rw [List.mem_iff_getElem]; exact ⟨k, by simp; omega, by simp⟩)
    rw [sameSize] at h2
    rw [h2] at this
    cases this

/-! ### Discrete values and parameters -/

/-- C139: discrete values are made of the given vectors in their order; with a null pointer nothing is made. -/
theorem discrete_made (vectors : List (Option Nat)) : Discrete.make vectors =
    if none ∈ vectors then .error .throws else .ok (vectors.filterMap id) := by
  induction vectors with
  | nil => rfl
  | cons a as ih =>
    cases a with
    | none => simp [Discrete.make]
    | some a =>
      rw [Discrete.make, ih]
      by_cases h : none ∈ as <;> simp [h, bind, Except.bind, pure, Except.pure]

/-- C139: an appended group gets the next index, at which it is found; the others keep theirs. -/
theorem group_appended (d : Discrete) (a : Nat) : ∃ d', d.appendGroup (some a) = .ok (d', (d.length : Int)) ∧
    d'.getVector d.length = .ok a ∧ d'.length = d.length + 1 ∧
    (∀ i : Int, 0 ≤ i → i < d.length → d'.getVector i = d.getVector i) ∧ d.appendGroup none = .error .throws := by
  refine ⟨d ++ [a], rfl, ?_, by simp, ?_, rfl⟩
  · have : (0 : Int) ≤ d.length ∧ (d.length : Int) < ((d ++ [a]).length : Int) := by simp
    simp only [Discrete.getVector, throwUnless, this, and_self, decide_true, if_true, bind, Except.bind]
    simp
  · intro i h0 h1
    have h2 : 0 ≤ i ∧ i < ((d ++ [a]).length : Int) := by simp; omega
    have h3 : i.toNat < d.length := by omega
    simp only [Discrete.getVector, throwUnless, h2, (⟨h0, h1⟩ : 0 ≤ i ∧ i < (d.length : Int)), and_self, decide_true, if_true, bind, Except.bind,
      List.getElem?_append_left h3]

/-- C139: the methods without an index are for the only group, and throw unless there is exactly one. -/
theorem only_group (d : Discrete) : d.getOnlyVector = (match d with | [a] => .ok a | _ => .error .throws) := by
  match d with
  | [] => rfl
  | [a] => rfl
  | a :: b :: d => simp [Discrete.getOnlyVector, throwUnless, bind, Except.bind]

/-- C139: parameters are set from others like the discrete and abstract variables of states, if they have no vector and no value
in common or are the same ones. -/
theorem parameters_set_from {armed : Bool} {hash : CType → BitVec 64} {S : CType → Prop}
    (ht : armed = true ∨ ∀ t u, S t → S u → hash t ≠ 0#64 → hash t = hash u → t = u) (m : Mem K V) {n n' a a' : List Nat}
    {xs ys : List (List K)} {bs cs : List (Value V)}
    (hx : n.map (m.vectors[·]?) = xs.map some) (hy : n'.map (m.vectors[·]?) = ys.map some)
    (hb : a.map (m.values[·]?) = bs.map some) (hc : a'.map (m.values[·]?) = cs.map some)
    (hn : n.Nodup) (ha : a.Nodup) (hnd : n = n' ∨ ∀ i ∈ n, i ∉ n') (had : a = a' ∨ ∀ i ∈ a, i ∉ a')
    (hl : a.length = a'.length) (hbs : ∀ x ∈ bs, S x.type) (hcs : ∀ x ∈ cs, S x.type) :
    let r := Plain.setFrom ⟨[], [], [], xs, bs⟩ ⟨[], [], [], ys, cs⟩
    ∃ m', Parameters.setFrom armed hash m ⟨n, a.map some⟩ ⟨n', a'.map some⟩ = (m', r.2) ∧
      n.map (m'.vectors[·]?) = r.1.discrete.map some ∧ a.map (m'.values[·]?) = r.1.abstract.map some ∧
      (∀ i, i ∉ n → m'.vectors[i]? = m.vectors[i]?) ∧ ∀ i, i ∉ a → m'.values[i]? = m.values[i]? := by
  intro r
  have hln : n.length = xs.length := by simpa using congrArg List.length hx
  have hln' : n'.length = ys.length := by simpa using congrArg List.length hy
  have hr : r = Plain.setFrom ⟨[], [], [], xs, bs⟩ ⟨[], [], [], ys, cs⟩ := rfl
  clear_value r
  subst hr
  unfold Plain.setFrom
  rw [if_pos ⟨rfl, rfl, rfl⟩]
  unfold Parameters.setFrom Discrete.setFrom
  dsimp only
  by_cases h : xs.length = ys.length
  swap
  · rw [if_neg h, if_neg (by omega)]
    exact ⟨m, rfl, hx, hb, fun _ _ => rfl, fun _ _ => rfl⟩
  rw [if_pos h, if_pos (by omega)]
  obtain ⟨w', h1, h2, h3⟩ := copyLoop_copied (f := copyGroup) (fits := sameSize) m.vectors n n' xs ys hx hy hn (by omega) hnd
    (fun x _ y _ => copyGroup_eq x y)
  rw [h1]
  rcases hcd : copied sameSize xs ys with ⟨d, e⟩
  rw [hcd] at h2
  dsimp only at h2
  cases e with
  | some e => exact ⟨_, rfl, h2, hb, h3, fun _ _ => rfl⟩
  | none =>
    dsimp only
    rw [abstract_setFrom_eq _ _ _ hl]
    obtain ⟨x', g1, g2, g3⟩ := copyLoop_copied (f := TypeErasure.setFrom armed hash) (fits := sameType) m.values a a' bs cs hb hc
      ha hl had (fun x hx y hy => told_setFrom ht (hbs x hx) (hcs y hy))
    rw [g1]
    exact ⟨_, rfl, h2, g2, h3, g3⟩

/-- C139: cloned parameters are equal to the original and have nothing in common with anything that existed before, which is as it was. -/
theorem parameters_cloned (m : Mem K V) {n a : List Nat} {xs : List (List K)} {bs : List (Value V)}
    (hx : n.map (m.vectors[·]?) = xs.map some) (hb : a.map (m.values[·]?) = bs.map some) :
    ∃ (m' : Mem K V) (n' a' : List Nat), Parameters.clone m ⟨n, a.map some⟩ = .ok (m', ⟨n', a'.map some⟩) ∧
      n'.map (m'.vectors[·]?) = xs.map some ∧ a'.map (m'.values[·]?) = bs.map some ∧ n'.Nodup ∧ a'.Nodup ∧
      (∀ i ∈ n', m.vectors.length ≤ i) ∧ (∀ i ∈ a', m.values.length ≤ i) ∧
      (∀ i < m.vectors.length, m'.vectors[i]? = m.vectors[i]?) ∧ ∀ i < m.values.length, m'.values[i]? = m.values[i]? := by
  have hinj : ∀ c n : Nat, ((List.range n).map (c + ·)).Nodup := fun c n =>
    List.Nodup.map (fun a b h => by simpa using h) List.nodup_range
  have hln : n.length = xs.length := by simpa using congrArg List.length hx
  have hla : a.length = bs.length := by simpa using congrArg List.length hb
  refine ⟨⟨m.vectors ++ xs, m.values ++ bs⟩, (List.range n.length).map (m.vectors.length + ·),
    (List.range a.length).map (m.values.length + ·), ?_, ?_, ?_, hinj _ _, hinj _ _, ?_, ?_, ?_, ?_⟩
  · unfold Parameters.clone
    simp only [Discrete.clone, map_valuesAt _ _ hx, abstract_clone _ _ hb, bind, Except.bind, pure, Except.pure]
  · rw [hln]
    exact map_fresh m.vectors xs
  · rw [hla]
    exact map_fresh m.values bs
  · intro i hi
    obtain ⟨c, -, rfl⟩ := List.mem_map.1 hi
    omega
  · intro i hi
    obtain ⟨c, -, rfl⟩ := List.mem_map.1 hi
    omega
  · intro i hi
    exact List.getElem?_append_left hi
  · intro i hi
    exact List.getElem?_append_left hi

/-! ### Numbers of abstract values that differ -/

/-- C139: if the numbers of abstract values differ, `SetFrom` does not throw: with assertions it aborts; without them it ignores what
the other one has more. -/
theorem abstract_numbers_differ (hash : CType → BitVec 64) (w : List (Value V)) (ps qs rs : List Nat) (hl : ps.length = qs.length)
    (hr : rs ≠ []) :
    Abstract.setFrom true hash w (ps.map some) ((qs ++ rs).map some) = (w, some .aborts) ∧
    Abstract.setFrom false hash w (ps.map some) ((qs ++ rs).map some) =
      Abstract.setFrom false hash w (ps.map some) (qs.map some) := by
  have h0 : 0 < rs.length := List.length_pos_iff.2 hr
  constructor
  · rw [Abstract.setFrom, if_pos ⟨rfl, by simp; omega⟩]
  · rw [Abstract.setFrom, Abstract.setFrom, if_neg (by simp), if_neg (by simp)]
    have key : ∀ (n i : Nat) (w : List (Value V)), n + i = ps.length →
        Abstract.setFromLoop false hash w (ps.map some) ((qs ++ rs).map some) n i =
        Abstract.setFromLoop false hash w (ps.map some) (qs.map some) n i := by
      intro n
      induction n with
      | zero => intro i w h; rfl
      | succ n ih =>
        intro i w h
        rw [Abstract.setFromLoop, Abstract.setFromLoop, getValue_some ps (by omega), getValue_some (qs ++ rs) (by simp; omega),
          getValue_some qs (by omega), List.getElem_append_left (by omega)]
        dsimp only
        rcases copyLoop (TypeErasure.setFrom false hash) w [(ps[i], qs[i])] with ⟨w', e⟩
        cases e with
        | none => exact ih (i + 1) w' (by omega)
        | some e => rfl
    exact key _ 0 w (by simp)

/-! ### Examples -/

/-- Types and a hash for the examples. -/
def stateTypeA : CType := .plain [.char 'A']
def stateTypeB : CType := .plain [.char 'B']
def stateHash : CType → BitVec 64 := fun t => if t = stateTypeA then 7#64 else 9#64

/-- A memory with one state with two positions, a velocity, no other continuous variables, two groups of discrete variables and an
abstract value, and a vector that belongs to nobody. -/
def stateWorld : SysState.World ℚ Nat where
  mem := ⟨[[1, 2, 3], [99], [4], [5, 6]], [⟨stateTypeB, 0⟩, ⟨stateTypeA, 10⟩]⟩
  states := [Layout.state ⟨0, 2, 1, 0, [2, 3], [1]⟩]

def statePlain : Plain ℚ Nat := ⟨[1, 2], [3], [], [[4], [5, 6]], [⟨stateTypeA, 10⟩]⟩

theorem stateWorld_refines : Refines stateWorld [statePlain] := by
  refine ⟨[⟨0, 2, 1, 0, [2, 3], [1]⟩], rfl, by unfold Apart; decide, rfl, ?_⟩
  intro i l p hl hp
  match i, hl, hp with
  | 0, hl, hp =>
    simp only [List.getElem?_cons_zero, Option.some.injEq] at hl hp
    subst hl hp
    constructor <;> simp [stateWorld, statePlain]

/-- Cloning, writing to the clone, copying back, and calls that throw. -/
def stateOps : List (SysState.Op ℚ Nat) :=
  [.clone 0, .setContinuous 1 [7, 8, 9], .setDiscrete 0 1 [0, 0], .setFrom 0 1, .setDiscrete 0 2 [1], .setAbstract 0 0 stateTypeA 11,
    .setContinuous 0 [1]]

example : AllValid [statePlain] stateOps ∧
    (meantRun [statePlain] stateOps).2 = [none, none, none, none, some .throws, none, some .outOfRange] ∧
    (meantRun [statePlain] stateOps).1 =
      [⟨[7, 8], [9], [], [[4], [5, 6]], [⟨stateTypeA, 11⟩]⟩, ⟨[7, 8], [9], [], [[4], [5, 6]], [⟨stateTypeA, 10⟩]⟩] := by
  refine ⟨⟨by unfold Valid; decide, by unfold Valid; decide +kernel, by unfold Valid; decide +kernel, ?_,
    by unfold Valid; decide +kernel, ?_, by unfold Valid; decide +kernel, trivial⟩, by decide +kernel, by decide +kernel⟩
  · exact ⟨_, _, rfl, rfl, by decide +kernel⟩
  · exact ⟨_, rfl, by decide +kernel, by decide +kernel⟩

example : (stateWorld.run false stateHash stateOps).2 = [none, none, none, none, some .throws, none, some .outOfRange] := by
  decide +kernel

/-- C139: a `SetFrom` that throws can have changed the state: the continuous variables and the first group are copied, the second one does not
fit. -/
theorem set_from_partly : ∃ (m : Mem ℚ Nat) (l k : Layout) (p o : Plain ℚ Nat), Holds m l p ∧ Holds m k o ∧ Apart [l, k] ∧
    (l.state.setFrom true stateHash m k.state).2 = some .throws ∧
    (l.state.setFrom true stateHash m k.state).1.vectors = [[5], [6], [3, 4], [5], [6], [7]] := by
  refine ⟨⟨[[1], [2], [3, 4], [5], [6], [7]], []⟩, ⟨0, 1, 0, 0, [1, 2], []⟩, ⟨3, 1, 0, 0, [4, 5], []⟩,
    ⟨[1], [], [], [[2], [3, 4]], []⟩, ⟨[5], [], [], [[6], [7]], []⟩, ?_, ?_, ?_, ?_, ?_⟩
  · constructor <;> simp
  · constructor <;> simp
  · unfold Apart; decide
  · decide +kernel
  · decide +kernel

/-- C139: if the other one has fewer abstract values, `SetFrom` aborts with assertions, and is undefined without them. -/
example : (Abstract.setFrom true stateHash [⟨stateTypeA, 1⟩, ⟨stateTypeA, 2⟩] [some 0] ([] : Abstract)).2 = some Err.aborts ∧
    (Abstract.setFrom false stateHash [⟨stateTypeA, 1⟩, ⟨stateTypeA, 2⟩] [some 0] ([] : Abstract)).2 = some Err.ub := by
  decide +kernel

/-- Parameters in the same memory, set from others. -/
example : (([2, 3] : List Nat).map (stateWorld.mem.vectors[·]?) = [[4], [5, 6]].map some) ∧
    Parameters.setFrom true stateHash ⟨[[1], [2, 3], [4], [5, 6]], [⟨stateTypeA, 1⟩, ⟨stateTypeA, 2⟩]⟩ ⟨[0, 1], [some 0]⟩
      ⟨[2, 3], [some 1]⟩ = ((⟨[[4], [5, 6], [4], [5, 6]], [⟨stateTypeA, 2⟩, ⟨stateTypeA, 2⟩]⟩ : Mem ℚ Nat), none) := by
  decide +kernel

/-- Values that are not alike. -/
example : ¬Alike statePlain { statePlain with abstract := [⟨stateTypeB, 10⟩] } ∧ Alike statePlain { statePlain with q := [8, 8] } := by
  unfold Alike
  decide +kernel

end Maliput.Props
