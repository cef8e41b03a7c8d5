import Verif.Model.InputCopies
import Verif.Spec.InputCopies
import Verif.Lemmas.Ports

set_option autoImplicit false
set_option linter.unusedSectionVars false

namespace Maliput.Ports

open Maliput

variable {K V : Type}

theorem copyInto_ok (l xs : List K) (h : l.length ≤ xs.length) : copyInto l xs = .ok (xs.take l.length) := by
  induction l generalizing xs with
  | nil => simp [copyInto]
  | cons a l ih =>
    cases xs with
    | nil => simp at h
    | cons x xs =>
      rw [copyInto, ih xs (by simpa using h)]
      rfl

theorem copyInto_ub (l xs : List K) (h : xs.length < l.length) : copyInto l xs = .error .ub := by
  induction l generalizing xs with
  | nil => simp at h
  | cons a l ih =>
    cases xs with
    | nil => rfl
    | cons x xs =>
      rw [copyInto, ih xs (by simpa using h)]
      rfl

theorem copied_vector (unset : K) {s : System K V} {ports : List (Declared K V)} (k : Keeps s ports) {i : Nat} {p : Declared K V}
    (hp : ports[i]? = some p) {n : Nat} (hn : p.size = some n) (xs : List K) :
    copied unset s i ⟨p.name, p.size⟩ (.vector xs) = if n ≤ xs.length then .ok (.vector (xs.take n)) else .error .ub := by
  obtain ⟨ys, _, hl, hv⟩ := keeps_allocateVector unset k hp hn
  rw [hn] at hv ⊢
  unfold copied
  simp only [castVector, hv, bind, Except.bind, pure, Except.pure]
  by_cases h : n ≤ xs.length
  · rw [if_pos h, copyInto_ok _ _ (by omega), hl]
  · rw [if_neg h, copyInto_ub _ _ (by omega)]

theorem copied_other (unset : K) (s : System K V) (i : Nat) (p : Declared K V) {n : Nat} (hn : p.size = some n) (t : Nat) (v : V) :
    copied unset s i ⟨p.name, p.size⟩ (.other t v) = .error .throws := by
  rw [hn]
  rfl

theorem copied_abstract (unset : K) (s : System K V) (i : Nat) (p : Declared K V) (hn : p.size = none) (d : Datum K V) :
    copied unset s i ⟨p.name, p.size⟩ d = .ok d := by
  rw [hn]
  rfl

/-- One port that takes its value. -/
theorem step_takes (unset : K) {s : System K V} {ports : List (Declared K V)} (k : Keeps s ports) {c : Context K V} (f : Fits ports c)
    {i : Nat} {p : Declared K V} (hp : ports[i]? = some p) {d : Datum K V} (h : p.takes d) :
    copied unset s i ⟨p.name, p.size⟩ d = .ok (p.cut d) ∧
      fixValue c i ⟨p.name, p.size⟩ (p.cut d) = ({ c with values := c.values.set i (some (p.cut d)) }, .ok ()) := by
  rw [fixValue_eq f i p hp, fixInput_of f.checkers f.length i p hp]
  unfold Declared.takes at h
  rcases hs : p.size with _ | n
  · rw [hs] at h
    have hc : p.cut d = d := by
      unfold Declared.cut
      rw [hs]
      cases d <;> rfl
    have hd : d.type = p.model.type := by cases d <;> exact h
    rw [hc]
    refine ⟨by have := copied_abstract unset s i p hs d; rwa [hs] at this, ?_⟩
    rw [if_pos]
    unfold Declared.suits
    rw [hs]
    cases d <;> simpa using hd
  · rw [hs] at h
    cases d with
    | other t v => exact h.elim
    | vector xs =>
      have hc : p.cut (.vector xs) = .vector (xs.take n) := by
        unfold Declared.cut
        rw [hs]
      have hx : n ≤ xs.length := h
      rw [hc]
      refine ⟨by have := copied_vector unset k hp hs xs; rw [hs, if_pos hx] at this; exact this, ?_⟩
      rw [if_pos]
      unfold Declared.suits
      rw [hs]
      simp [hx]

/-- One port that does not take its value. -/
theorem step_refuses (unset : K) {s : System K V} {ports : List (Declared K V)} (k : Keeps s ports) {c : Context K V} (f : Fits ports c)
    {i : Nat} {p : Declared K V} (hp : ports[i]? = some p) {d : Datum K V} (h : ¬ p.takes d) :
    copied unset s i ⟨p.name, p.size⟩ d = .error .throws ∨
    (copied unset s i ⟨p.name, p.size⟩ d = .error .ub ∧ ∃ n xs, p.size = some n ∧ d = .vector xs ∧ xs.length < n) ∨
      ∃ d', copied unset s i ⟨p.name, p.size⟩ d = .ok d' ∧ fixValue c i ⟨p.name, p.size⟩ d' = (c, .error .throws) := by
  unfold Declared.takes at h
  rcases hs : p.size with _ | n
  · rw [hs] at h
    have hd : ¬ d.type = p.model.type := by cases d <;> exact h
    refine Or.inr (Or.inr ⟨d, by have := copied_abstract unset s i p hs d; rwa [hs] at this, ?_⟩)
    rw [← hs, fixValue_eq f i p hp, fixInput_of f.checkers f.length i p hp, if_neg]
    unfold Declared.suits
    rw [hs]
    cases d <;> simpa using hd
  · rw [hs] at h
    cases d with
    | other t v => exact Or.inl (by have := copied_other unset s i p hs t v; rwa [hs] at this)
    | vector xs =>
      have hx : ¬ n ≤ xs.length := h
      exact Or.inr (Or.inl ⟨by have := copied_vector unset k hp hs xs; rw [hs, if_neg hx] at this; exact this,
        n, xs, rfl, rfl, by omega⟩)

theorem getInput_nat (s : System K V) (i : Nat) :
    getInput s i = match s.inputs[i]? with | none => .error .outOfRange | some p => .ok p := by
  unfold getInput
  rw [if_neg (by omega)]
  rfl

theorem set_eval {c : Context K V} {i : Nat} (hi : i < c.values.length) (d : Datum K V) (j : Nat) :
    evalOptional { c with values := c.values.set i (some d) } j = if j = i then some d else evalOptional c j := by
  unfold evalOptional
  dsimp only
  by_cases h : j = i
  · rw [if_pos h, h, List.getElem?_set_self hi]
    rfl
  · rw [if_neg h, List.getElem?_set_ne (by omega)]

/-- When all ports take their values. -/
theorem fixFrom_ok (unset : K) {s other : System K V} {ports : List (Declared K V)} (k : Keeps s ports) (oc : Context K V)
    (l : List (Declared K V)) (i : Nat) (c : Context K V) (f : Fits ports c) (h : ∀ j p, l[j]? = some p → ports[i + j]? = some p)
    (hl : i + l.length ≤ other.inputs.length ∨ l = [])
    (ht : ∀ j p d, l[j]? = some p → evalOptional oc (i + j) = some d → p.takes d) :
    ∃ c', fixFrom unset s other oc i (l.map fun p => ⟨p.name, p.size⟩) c = (c', .ok ()) ∧ Fits ports c' ∧
      (∀ j, j < i → evalOptional c' j = evalOptional c j) ∧
      ∀ j p, l[j]? = some p → evalOptional c' (i + j) = ((evalOptional oc (i + j)).map p.cut).or (evalOptional c (i + j)) := by
  induction l generalizing i c with
  | nil => exact ⟨c, rfl, f, fun _ _ => rfl, fun j p hp => by simp at hp⟩
  | cons p l ih =>
    have hp := h 0 p rfl
    rw [Nat.add_zero] at hp
    have hi := (List.getElem?_eq_some_iff.mp hp).1
    rcases hl with hl | hl
    swap
    · simp at hl
    rw [List.length_cons] at hl
    have ho : i < other.inputs.length := by omega
    have hg : getInput other i = .ok other.inputs[i] := by
      rw [getInput_nat, List.getElem?_eq_getElem ho]
    have hsh : ∀ j q, l[j]? = some q → ports[i + 1 + j]? = some q := fun j q hq => by
      have := h (j + 1) q (by simpa using hq)
      rwa [show i + 1 + j = i + (j + 1) by omega]
    have hts : ∀ j q d, l[j]? = some q → evalOptional oc (i + 1 + j) = some d → q.takes d := fun j q d hq hd =>
      ht (j + 1) q d (by simpa using hq) (by rwa [show i + (j + 1) = i + 1 + j by omega])
    rw [List.map_cons, fixFrom, hg]
    dsimp only
    rcases he : evalOptional oc i with _ | d
    · dsimp only
      obtain ⟨c', h₁, h₂, h₃, h₄⟩ := ih (i + 1) c f hsh (Or.inl (by omega)) hts
      refine ⟨c', h₁, h₂, fun j hj => h₃ j (by omega), fun j q hq => ?_⟩
      cases j with
      | zero => rw [Nat.add_zero, he, h₃ i (by omega)]; simp
      | succ j =>
        have := h₄ j q (by simpa using hq)
        rwa [show i + 1 + j = i + (j + 1) by omega] at this
    · obtain ⟨h₅, h₆⟩ := step_takes unset k f hp (ht 0 p d rfl (by rw [Nat.add_zero]; exact he))
      dsimp only
      rw [h₅]
      dsimp only
      rw [h₆]
      dsimp only
      have f' : Fits ports { c with values := c.values.set i (some (p.cut d)) } := by
        have := fits_fixInput f ((i : Int), p.cut d)
        dsimp only at this
        rw [← fixValue_eq f i p hp, h₆] at this
        exact this
      have hc : i < c.values.length := by rw [f.length]; exact hi
      obtain ⟨c', h₁, h₂, h₃, h₄⟩ := ih (i + 1) _ f' hsh (Or.inl (by omega)) hts
      refine ⟨c', h₁, h₂, fun j hj => ?_, fun j q hq => ?_⟩
      · rw [h₃ j (by omega), set_eval hc, if_neg (by omega)]
      · cases j with
        | zero =>
          simp only [List.getElem?_cons_zero, Option.some.injEq] at hq
          subst hq
          rw [Nat.add_zero, he, h₃ i (by omega), set_eval hc, if_pos rfl]
          simp
        | succ j =>
          have := h₄ j q (by simpa using hq)
          rw [show i + 1 + j = i + (j + 1) by omega] at this
          rw [this, set_eval hc, if_neg (by omega)]

/-- When the call succeeds, all ports took their values. -/
theorem fixFrom_takes (unset : K) {s other : System K V} {ports : List (Declared K V)} (k : Keeps s ports) (oc : Context K V)
    (l : List (Declared K V)) (i : Nat) (c : Context K V) (f : Fits ports c) (h : ∀ j p, l[j]? = some p → ports[i + j]? = some p)
    (c' : Context K V) (r : Except Err Unit)
    (hr : fixFrom unset s other oc i (l.map fun p => ⟨p.name, p.size⟩) c = (c', r)) :
    (r = .ok () → (i + l.length ≤ other.inputs.length ∨ l = []) ∧
      ∀ j p d, l[j]? = some p → evalOptional oc (i + j) = some d → p.takes d) ∧
    (∀ e, r = .error e → (e = .outOfRange ∧ other.inputs.length < i + l.length) ∨ e = .throws ∨
      (e = .ub ∧ ∃ j p n xs, l[j]? = some p ∧ p.size = some n ∧ evalOptional oc (i + j) = some (.vector xs) ∧ xs.length < n)) := by
  induction l generalizing i c with
  | nil =>
    cases hr
    exact ⟨fun _ => ⟨Or.inr rfl, fun j p d hp => by simp at hp⟩, fun e he => by cases he⟩
  | cons p l ih =>
    have hp := h 0 p rfl
    rw [Nat.add_zero] at hp
    have hsh : ∀ j q, l[j]? = some q → ports[i + 1 + j]? = some q := fun j q hq => by
      have := h (j + 1) q (by simpa using hq)
      rwa [show i + 1 + j = i + (j + 1) by omega]
    rw [List.map_cons, fixFrom, getInput_nat] at hr
    rcases ho : other.inputs[i]? with _ | q
    · rw [ho] at hr
      cases hr
      refine ⟨fun he => (by cases he), fun e he => Or.inl ?_⟩
      cases he
      have := List.getElem?_eq_none_iff.mp ho
      exact ⟨rfl, by simp; omega⟩
    · have ho := (List.getElem?_eq_some_iff.mp ho).1
      rw [List.getElem?_eq_getElem ho] at hr
      dsimp only at hr
      have key : ∀ (c₁ : Context K V), Fits ports c₁ →
          fixFrom unset s other oc (i + 1) (l.map fun p => ⟨p.name, p.size⟩) c₁ = (c', r) →
          (∀ d, evalOptional oc i = some d → p.takes d) →
          (r = .ok () → (i + (p :: l).length ≤ other.inputs.length ∨ p :: l = []) ∧
            ∀ j q d, (p :: l)[j]? = some q → evalOptional oc (i + j) = some d → q.takes d) ∧
          (∀ e, r = .error e → (e = .outOfRange ∧ other.inputs.length < i + (p :: l).length) ∨ e = .throws ∨
            (e = .ub ∧ ∃ j q n xs, (p :: l)[j]? = some q ∧ q.size = some n ∧ evalOptional oc (i + j) = some (.vector xs) ∧
              xs.length < n)) := by
        intro c₁ f₁ hr₁ hd
        obtain ⟨h₁, h₂⟩ := ih (i + 1) c₁ f₁ hsh hr₁
        refine ⟨fun e => ⟨Or.inl ?_, ?_⟩, fun e he => ?_⟩
        · rcases (h₁ e).1 with h' | h'
          · simp; omega
          · subst h'; simp; omega
        · intro j q d hq hv
          cases j with
          | zero =>
            simp only [List.getElem?_cons_zero, Option.some.injEq] at hq
            subst hq
            exact hd d (by simpa using hv)
          | succ j => exact (h₁ e).2 j q d (by simpa using hq) (by rwa [show i + 1 + j = i + (j + 1) by omega])
        · rcases h₂ e he with h' | h' | ⟨h', j, q, n, xs, h₃, h₄, h₅, h₆⟩
          · exact Or.inl ⟨h'.1, by simp; omega⟩
          · exact Or.inr (Or.inl h')
          · exact Or.inr (Or.inr ⟨h', j + 1, q, n, xs, by simpa using h₃, h₄, by rwa [show i + (j + 1) = i + 1 + j by omega], h₆⟩)
      rcases he : evalOptional oc i with _ | d
      · rw [he] at hr
        exact key c f hr (fun d hd => by rw [he] at hd; cases hd)
      · rw [he] at hr
        dsimp only at hr
        by_cases ht : p.takes d
        · obtain ⟨h₅, h₆⟩ := step_takes unset k f hp ht
          rw [h₅] at hr
          dsimp only at hr
          rw [h₆] at hr
          dsimp only at hr
          have f' : Fits ports { c with values := c.values.set i (some (p.cut d)) } := by
            have := fits_fixInput f ((i : Int), p.cut d)
            dsimp only at this
            rw [← fixValue_eq f i p hp, h₆] at this
            exact this
          exact key _ f' hr (fun d' hd' => by rw [he] at hd'; cases hd'; exact ht)
        · rcases step_refuses unset k f hp ht with h₅ | ⟨h₅, n, xs, h₆, h₇, h₈⟩ | ⟨d', h₅, h₆⟩
          · rw [h₅] at hr
            cases hr
            exact ⟨fun e => (by cases e), fun e he => (by cases he; exact Or.inr (Or.inl rfl))⟩
          · rw [h₅] at hr
            cases hr
            refine ⟨fun e => (by cases e), fun e he => ?_⟩
            cases he
            exact Or.inr (Or.inr ⟨rfl, 0, p, n, xs, rfl, h₆, by rw [Nat.add_zero, ‹evalOptional oc i = _›, h₇], h₈⟩)
          · rw [h₅] at hr
            dsimp only at hr
            rw [h₆] at hr
            cases hr
            exact ⟨fun e => (by cases e), fun e he => (by cases he; exact Or.inr (Or.inl rfl))⟩

end Maliput.Ports
