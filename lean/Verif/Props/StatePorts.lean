import Verif.Lemmas.Monad
import Verif.Model.StatePorts

set_option autoImplicit false
set_option linter.unusedSectionVars false

/-! C158: output ports of states. -/
namespace Maliput.Props
open Maliput Producer StatePorts

variable {Ty : Type} [DecidableEq Ty] {K : Type} {El : Ty → Type}

/-- C158: a port is declared exactly for a state that the system has; otherwise the call throws. -/
theorem state_port_declared (s : Leaf K El) :
    (∀ i, (s.declarePort (.continuous i)).isOk = true ↔ i = some 0) ∧
    (∀ i, (s.declarePort (.discrete i)).isOk = true ↔ i < s.discrete.length) ∧
    (∀ i, (s.declarePort (.abstract i)).isOk = true ↔ ∃ k, i = some k ∧ k < s.abstract.length) ∧
    ∀ i e, s.declarePort i = .error e → e = .throws := by
  refine ⟨fun i => ?_, fun i => ?_, fun i => ?_, fun i e => ?_⟩
  · rcases i with _ | i
    · simp [Leaf.declarePort, Except.isOk, Except.toBool]
    · by_cases h : i = 0 <;> simp [Leaf.declarePort, h, Except.isOk, Except.toBool]
  · by_cases h : i < s.discrete.length
    · simp [Leaf.declarePort, h, Except.isOk, Except.toBool]
    · simp [Leaf.declarePort, h, Except.isOk, Except.toBool]
  · rcases i with _ | i
    · simp [Leaf.declarePort, Except.isOk, Except.toBool]
    · by_cases h : i < s.abstract.length <;> simp [Leaf.declarePort, h, Except.isOk, Except.toBool]
  · rcases i with (_ | i) | i | (_ | i) <;> simp only [Leaf.declarePort]
    · rintro ⟨⟩; rfl
    · split <;> rintro ⟨⟩; rfl
    · split <;> rintro ⟨⟩; rfl
    · rintro ⟨⟩; rfl
    · split <;> rintro ⟨⟩; rfl

theorem declareAll_extends {s s' : Leaf K El} {ds : List (Declaration K El)} (h : s.declareAll ds = .ok s') :
    (∃ l, s'.discrete = s.discrete ++ l) ∧ ∃ l, s'.abstract = s.abstract ++ l := by
  induction ds generalizing s with
  | nil =>
    obtain rfl := Except.ok.inj h
    exact ⟨⟨[], by simp⟩, ⟨[], by simp⟩⟩
  | cons d ds ih =>
    obtain ⟨s1, h1, h2⟩ := bind_ok.1 h
    obtain ⟨⟨l, hl⟩, m, hm⟩ := ih h2
    cases d with
    | continuous model q v z =>
      simp only [Leaf.declare] at h1
      split at h1
      · obtain rfl := Except.ok.inj h1
        exact ⟨⟨l, hl⟩, m, hm⟩
      · cases h1
    | discrete model =>
      obtain rfl := Except.ok.inj h1
      exact ⟨⟨[model] ++ l, by simpa using hl⟩, m, hm⟩
    | abstract model =>
      obtain rfl := Except.ok.inj h1
      exact ⟨⟨l, hl⟩, [model] ++ m, by simpa using hm⟩

/-- The states have the sizes and the types of the models. -/
def Shaped (s : Leaf K El) (c : States K El) : Prop :=
  c.continuous.length = s.continuous.length ∧ c.discrete.map List.length = s.discrete.map List.length ∧
    c.abstract.map Sigma.fst = s.abstract.map Sigma.fst

theorem write_shaped {s : Leaf K El} {c : States K El} (h : Shaped s c) (w : Write K El) : Shaped s (c.write w) := by
  obtain ⟨h1, h2, h3⟩ := h
  cases w with
  | continuous xs =>
    unfold States.write setVector
    by_cases hl : xs.length = c.continuous.length
    · simp only [hl, if_true]
      exact ⟨hl.trans h1, h2, h3⟩
    · simp only [hl, if_false]
      exact ⟨h1, h2, h3⟩
  | discrete i xs =>
    cases ho : c.discrete[i]? with
    | none =>
      have hw : ∀ x, c.write (.discrete i x) = c := fun x => by simp only [States.write, ho]
      rw [hw]
      exact ⟨h1, h2, h3⟩
    | some old =>
      simp only [States.write, setVector, ho]
      by_cases hl : xs.length = old.length
      · simp only [hl, if_true]
        refine ⟨h1, ?_, h3⟩
        rw [← h2]
        refine List.ext_getElem? fun j => ?_
        rw [List.getElem?_map, List.getElem?_map, List.getElem?_set]
        by_cases hj : i = j
        · subst hj
          have : i < c.discrete.length := by
            by_contra hc
            rw [List.getElem?_eq_none (by omega)] at ho
            cases ho
          simp only [this, if_true, ho, Option.map_some, hl]
        · simp only [hj, if_false]
      · simp only [hl, if_false]
        exact ⟨h1, h2, h3⟩
  | abstract i v =>
    cases ho : c.abstract[i]? with
    | none =>
      have hw : ∀ x, c.write (.abstract i x) = c := fun x => by simp only [States.write, ho]
      rw [hw]
      exact ⟨h1, h2, h3⟩
    | some old =>
      simp only [States.write, setValue, ho]
      by_cases hl : old.1 = v.1
      · simp only [hl, if_true]
        refine ⟨h1, h2, ?_⟩
        rw [← h3]
        refine List.ext_getElem? fun j => ?_
        rw [List.getElem?_map, List.getElem?_map, List.getElem?_set]
        by_cases hj : i = j
        · subst hj
          have : i < c.abstract.length := by
            by_contra hc
            rw [List.getElem?_eq_none (by omega)] at ho
            cases ho
          simp only [this, if_true, ho, Option.map_some, hl]
        · simp only [hj, if_false]
      · simp only [hl, if_false]
        exact ⟨h1, h2, h3⟩

theorem writes_shaped {s : Leaf K El} (ws : List (Write K El)) {c : States K El} (h : Shaped s c) :
    Shaped s (ws.foldl States.write c) := by
  induction ws generalizing c with
  | nil => exact h
  | cons w ws ih => exact ih (write_shaped h w)

/-- C158: a port of a discrete state gives the values that the state has in the context, whatever is declared after the port and whatever
was written to the states. -/
theorem discrete_port_value {s s' : Leaf K El} {i : Nat} {p : Port K} {ds : List (Declaration K El)} (ws : List (Write K El))
    (hp : s.declarePort (.discrete i) = .ok p) (hd : s.declareAll ds = .ok s') :
    ∃ xs, (ws.foldl States.write s'.allocate).discrete[i]? = some xs ∧ p.eval s' (ws.foldl States.write s'.allocate) = .ok (.vector xs) := by
  simp only [Leaf.declarePort] at hp
  cases hm : s.discrete[i]? with
  | none => rw [hm] at hp; cases hp
  | some model =>
    rw [hm] at hp
    obtain rfl := Except.ok.inj hp
    obtain ⟨⟨l, hl⟩, -⟩ := declareAll_extends hd
    have hlt : i < s.discrete.length := by
      by_contra hc
      rw [List.getElem?_eq_none (by omega)] at hm
      cases hm
    have hm' : s'.discrete[i]? = some model := by rw [hl, List.getElem?_append_left hlt, hm]
    obtain ⟨-, h2, -⟩ := writes_shaped ws (s := s') (c := s'.allocate) ⟨rfl, rfl, rfl⟩
    have h := congrArg (fun x => x[i]?) h2
    simp only [List.getElem?_map, hm', Option.map_some] at h
    cases hx : (ws.foldl States.write s'.allocate).discrete[i]? with
    | none => rw [hx] at h; cases h
    | some xs =>
      rw [hx] at h
      refine ⟨xs, rfl, ?_⟩
      simp only [Port.eval, hx, setVector, if_pos (Option.some.inj h)]
      rfl

/-- C158: the same for a port of an abstract state. -/
theorem abstract_port_value {s s' : Leaf K El} {i : Nat} {p : Port K} {ds : List (Declaration K El)} (ws : List (Write K El))
    (hp : s.declarePort (.abstract (some i)) = .ok p) (hd : s.declareAll ds = .ok s') :
    ∃ v, (ws.foldl States.write s'.allocate).abstract[i]? = some v ∧ p.eval s' (ws.foldl States.write s'.allocate) = .ok (.value v) := by
  simp only [Leaf.declarePort] at hp
  by_cases hlt : i < s.abstract.length
  · rw [if_pos hlt] at hp
    obtain rfl := Except.ok.inj hp
    obtain ⟨-, l, hl⟩ := declareAll_extends hd
    have hm' : s'.abstract[i]? = some s.abstract[i] := by rw [hl, List.getElem?_append_left hlt, List.getElem?_eq_getElem hlt]
    obtain ⟨-, -, h2⟩ := writes_shaped ws (s := s') (c := s'.allocate) ⟨rfl, rfl, rfl⟩
    have h := congrArg (fun x => x[i]?) h2
    simp only [List.getElem?_map, hm', Option.map_some] at h
    cases hx : (ws.foldl States.write s'.allocate).abstract[i]? with
    | none => rw [hx] at h; cases h
    | some v =>
      rw [hx] at h
      refine ⟨v, rfl, ?_⟩
      simp only [Port.eval, hx, hm', setValue, if_pos (Option.some.inj h).symm]
      rfl
  · rw [if_neg hlt] at hp
    cases hp

/-- C158: a port of the continuous state gives its values exactly if the size of the state is still the one it had when the port was
declared; otherwise every evaluation throws. -/
theorem continuous_port_value_partial {s s' : Leaf K El} {p : Port K} {ds : List (Declaration K El)} (ws : List (Write K El))
    (hp : s.declarePort (.continuous (some 0)) = .ok p) (_hd : s.declareAll ds = .ok s') :
    p.eval s' (ws.foldl States.write s'.allocate) =
      if s'.continuous.length = s.continuous.length then .ok (.vector (ws.foldl States.write s'.allocate).continuous)
      else .error .throws := by
  obtain rfl := Except.ok.inj hp
  obtain ⟨h1, -, -⟩ := writes_shaped ws (s := s') (c := s'.allocate) ⟨rfl, rfl, rfl⟩
  simp only [Port.eval, setVector, h1]
  split <;> rfl

/-- C158: what is written to a state is what it has, if its size is right, and the other states keep theirs. -/
theorem state_written (c : States K El) (i : Nat) (xs old : List K) (h : c.discrete[i]? = some old) :
    (c.write (.discrete i xs)).discrete[i]? = some (if xs.length = old.length then xs else old) ∧
    (∀ j, j ≠ i → (c.write (.discrete i xs)).discrete[j]? = c.discrete[j]?) ∧
    (c.write (.discrete i xs)).continuous = c.continuous ∧ (c.write (.discrete i xs)).abstract = c.abstract := by
  have hlt : i < c.discrete.length := by
    by_contra hc
    rw [List.getElem?_eq_none (by omega)] at h
    cases h
  by_cases hl : xs.length = old.length
  · simp only [States.write, h, setVector, hl, if_true]
    exact ⟨by simp [hlt], fun j hj => by rw [List.getElem?_set_ne (fun e => hj e.symm)], trivial, trivial⟩
  · simp only [States.write, h, setVector, hl, if_false]
    exact ⟨trivial, fun j _ => trivial, trivial, trivial⟩

/-- C158: the same for the continuous state. -/
theorem continuous_state_written (c : States K El) (xs : List K) :
    c.write (.continuous xs) = { c with continuous := if xs.length = c.continuous.length then xs else c.continuous } := by
  by_cases hl : xs.length = c.continuous.length <;> simp only [States.write, setVector, hl, if_true, if_false]

/-- C158: the same for an abstract state, with types instead of sizes. -/
theorem abstract_state_written (c : States K El) (i : Nat) (v old : Erased El) (h : c.abstract[i]? = some old) :
    (c.write (.abstract i v)).abstract[i]? = some (if v.1 = old.1 then v else old) ∧
    (∀ j, j ≠ i → (c.write (.abstract i v)).abstract[j]? = c.abstract[j]?) ∧
    (c.write (.abstract i v)).continuous = c.continuous ∧ (c.write (.abstract i v)).discrete = c.discrete := by
  have hlt : i < c.abstract.length := by
    by_contra hc
    rw [List.getElem?_eq_none (by omega)] at h
    cases h
  by_cases hl : v.1 = old.1
  · simp only [States.write, h, setValue, hl, if_true]
    exact ⟨by simp [hlt], fun j hj => by rw [List.getElem?_set_ne (fun e => hj e.symm)], trivial, trivial⟩
  · have hl' : ¬old.1 = v.1 := fun e => hl e.symm
    simp only [States.write, h, setValue, hl, hl', if_false]
    exact ⟨trivial, fun j _ => trivial, trivial, trivial⟩

/-- C158 is not true of the continuous state: a second declaration with another size leaves the port declared before with a size that no
state has. -/
theorem continuous_port_stale : ∃ (s s' : Leaf Nat (fun _ : Unit => Nat)) (p : Port Nat),
    ({} : Leaf Nat (fun _ : Unit => Nat)).declareAll [.continuous [1, 2] 0 0 2] = .ok s ∧
    s.declarePort (.continuous (some 0)) = .ok p ∧ s.declareAll [.continuous [1, 2, 3] 1 1 1] = .ok s' ∧
    p.eval s' s'.allocate = .error .throws :=
  ⟨⟨[1, 2], [], []⟩, ⟨[1, 2, 3], [], []⟩, .continuous [1, 2], rfl, rfl, rfl, rfl⟩

/-- A system with two discrete states and an abstract state. -/
def threeStates : Leaf Nat (fun _ : Bool => Nat) := ⟨[1], [[2, 3], [4]], [⟨true, 5⟩]⟩

example : ∃ p s', threeStates.declarePort (.discrete 0) = .ok p ∧ threeStates.declareAll [.discrete [6], .abstract ⟨false, 0⟩] = .ok s' ∧
    p.eval s' ([.discrete 0 [8, 9], .discrete 0 [7], .abstract 0 ⟨true, 1⟩].foldl States.write s'.allocate) = .ok (.vector [8, 9]) :=
  ⟨_, _, rfl, rfl, rfl⟩
example : ∃ p s', threeStates.declarePort (.abstract (some 0)) = .ok p ∧ threeStates.declareAll [.abstract ⟨false, 0⟩] = .ok s' ∧
    p.eval s' ([.abstract 0 ⟨true, 1⟩, .abstract 0 ⟨false, 2⟩].foldl States.write s'.allocate) = .ok (.value ⟨true, 1⟩) :=
  ⟨_, _, rfl, rfl, rfl⟩
example : ∃ p s', threeStates.declarePort (.continuous (some 0)) = .ok p ∧ threeStates.declareAll [.continuous [0] 0 0 1] = .ok s' ∧
    p.eval s' ([.continuous [8], .continuous []].foldl States.write s'.allocate) = .ok (.vector [8]) :=
  ⟨_, _, rfl, rfl, rfl⟩

end Maliput.Props
