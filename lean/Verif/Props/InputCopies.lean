import Verif.Lemmas.InputCopies

set_option autoImplicit false
set_option linter.unusedSectionVars false

/-!
Copying the values of the input ports of one system to the context of another (C153).
-/
namespace Maliput.Props

open Maliput Ports

variable {K V : Type}

/-- Declarations of a vector port with two elements and an abstract port. -/
def copyDecls : List (Decl Nat Nat) := [.vectorInput none [5, 6], .abstractInput (some ['a']) (.other 3 7)]

/-- The system they make. -/
def copySystem : System Nat Nat :=
  ⟨[⟨['u', '0'], some 2⟩, ⟨['a'], none⟩], [some (.vector [5, 6]), some (.other 3 7)], [], 0⟩

/-- What each of its ports accepts. -/
def copyCheckers : List Checker := [.size 2, .type (some 3)]

example : history fresh copyDecls = some copySystem ∧ makeContext 0 copySystem = .ok ⟨copyCheckers, [none, none]⟩ := by decide +kernel

/-- When two systems have ports that take the same values, the call succeeds: each port that has a value in the other context has the same
value afterwards, and the other ports keep what they had. -/
theorem fix_from_same_shape (unset : K) (ds ods : List (Decl K V)) (hds : ∀ d ∈ ds, d.plain = false) (hods : ∀ d ∈ ods, d.plain = false)
    (s other : System K V) (h : history fresh ds = some s) (ho : history fresh ods = some other)
    (hsh : SameShape (declared ds) (declared ods)) (c₀ c oc₀ oc : Context K V) (hc : makeContext unset s = .ok c₀)
    (hoc : makeContext unset other = .ok oc₀) (os oos : List (Int × Datum K V)) (hos : fixes c₀ os = some c)
    (hoos : fixes oc₀ oos = some oc) :
    ∃ c', fixInputsFrom unset s other oc c = (c', .ok ()) ∧
      ∀ i, evalOptional c' i = (evalOptional oc i).or (evalOptional c i) := by
  have k := keeps_history ds hds keeps_fresh h
  have k' := keeps_history ods hods keeps_fresh ho
  rw [show ds.foldl withDecl [] = declared ds from rfl] at k
  rw [show ods.foldl withDecl [] = declared ods from rfl] at k'
  rw [keeps_makeContext unset k] at hc
  rw [keeps_makeContext unset k'] at hoc
  cases hc
  cases hoc
  have f := fits_fixes os (fits_fresh (declared ds)) hos
  have f' := fits_fixes oos (fits_fresh (declared ods)) hoos
  have hsuits : ∀ (i : Nat) p d, (declared ds)[i]? = some p → evalOptional oc i = some d → p.suits d = true := by
    intro i p d hp hd
    have hi : i < (declared ods).length := by rw [← hsh.1]; exact (List.getElem?_eq_some_iff.mp hp).1
    have hq := List.getElem?_eq_getElem hi
    obtain ⟨e₁, e₂⟩ := hsh.2 i p _ hp hq
    have hv : oc.values[i]? = some (some d) := by
      unfold evalOptional at hd
      cases hx : oc.values[i]? with
      | none => rw [hx] at hd; cases hd
      | some x => rw [hx] at hd; cases x <;> simp_all
    have := f'.suits i _ d hq hv
    unfold Declared.suits at this ⊢
    rw [e₁, e₂]
    exact this
  have hcut : ∀ (i : Nat) p d, (declared ds)[i]? = some p → evalOptional oc i = some d → p.cut d = d := by
    intro i p d hp hd
    have := hsuits i p d hp hd
    unfold Declared.suits at this
    unfold Declared.cut
    cases hs : p.size <;> cases d <;> simp_all
    exact List.take_of_length_le (Nat.le_of_eq this)
  have htakes : ∀ (i : Nat) p d, (declared ds)[i]? = some p → evalOptional oc i = some d → p.takes d := by
    intro i p d hp hd
    have := hsuits i p d hp hd
    unfold Declared.suits at this
    unfold Declared.takes
    cases hs : p.size <;> cases d <;> simp_all
  obtain ⟨c', h₁, hf, _, h₄⟩ := fixFrom_ok unset k (other := other) oc (declared ds) 0 c f (fun j p hp => by simpa using hp)
    (Or.inl (by rw [k'.inputs, hsh.1]; simp)) (fun j p d hp hd => htakes j p d hp (by simpa using hd))
  refine ⟨c', by unfold fixInputsFrom; rw [k.inputs]; exact h₁, fun i => ?_⟩
  by_cases hi : i < (declared ds).length
  · have hp := List.getElem?_eq_getElem hi
    have := h₄ i _ hp
    rw [Nat.zero_add] at this
    rw [this]
    congr 1
    cases he : evalOptional oc i with
    | none => rfl
    | some d => rw [Option.map_some, hcut i _ d hp he]
  · have hout : ∀ (ports : List (Declared K V)) (x : Context K V), Fits ports x → ¬ i < ports.length → evalOptional x i = none := by
      intro ports x fx hx
      unfold evalOptional
      rw [List.getElem?_eq_none_iff.mpr (by rw [fx.length]; omega)]
      rfl
    rw [hout _ c' hf hi, hout _ c f hi, hout _ oc f' (by rw [← hsh.1]; exact hi)]
    rfl

example : SameShape (declared copyDecls) (declared copyDecls) := ⟨rfl, fun i p q hp hq => by rw [hp] at hq; cases hq; exact ⟨rfl, rfl⟩⟩

example : fixInputsFrom 0 copySystem copySystem ⟨copyCheckers, [some (.vector [1, 2]), none]⟩
    ⟨copyCheckers, [some (.vector [3, 4]), some (.other 3 9)]⟩ =
      (⟨copyCheckers, [some (.vector [1, 2]), some (.other 3 9)]⟩, .ok ()) := by decide +kernel

/-- With systems that need not have the same ports: the call succeeds if and only if the other system has a port for each one, and each
value there is one that the port takes.  A vector that is too long is cut. -/
theorem fix_from_succeeds (unset : K) (ds : List (Decl K V)) (hds : ∀ d ∈ ds, d.plain = false) (s other : System K V)
    (h : history fresh ds = some s) (c₀ c oc : Context K V) (hc : makeContext unset s = .ok c₀) (os : List (Int × Datum K V))
    (hos : fixes c₀ os = some c) :
    ((fixInputsFrom unset s other oc c).2 = .ok () ↔ (declared ds).length ≤ other.inputs.length ∧
      ∀ (i : Nat) p d, (declared ds)[i]? = some p → evalOptional oc i = some d → p.takes d) ∧
    ((fixInputsFrom unset s other oc c).2 = .ok () → ∀ (i : Nat) p, (declared ds)[i]? = some p →
      evalOptional (fixInputsFrom unset s other oc c).1 i = ((evalOptional oc i).map p.cut).or (evalOptional c i)) := by
  have k := keeps_history ds hds keeps_fresh h
  rw [show ds.foldl withDecl [] = declared ds from rfl] at k
  rw [keeps_makeContext unset k] at hc
  cases hc
  have f := fits_fixes os (fits_fresh (declared ds)) hos
  unfold fixInputsFrom
  rw [k.inputs]
  have hsh : ∀ j p, (declared ds)[j]? = some p → (declared ds)[0 + j]? = some p := fun j p hp => by simpa using hp
  have back : ((declared ds).length ≤ other.inputs.length ∧
      ∀ (i : Nat) p d, (declared ds)[i]? = some p → evalOptional oc i = some d → p.takes d) → _ := fun hh =>
    fixFrom_ok unset k (other := other) oc (declared ds) 0 c f hsh (Or.inl (by simpa using hh.1))
      (fun j p d hp hd => hh.2 j p d hp (by simpa using hd))
  have there : (fixFrom unset s other oc 0 ((declared ds).map fun p => ⟨p.name, p.size⟩) c).2 = .ok () →
      ((declared ds).length ≤ other.inputs.length ∧
        ∀ (i : Nat) p d, (declared ds)[i]? = some p → evalOptional oc i = some d → p.takes d) := by
    intro hok
    obtain ⟨h₁, _⟩ := fixFrom_takes unset k (other := other) oc (declared ds) 0 c f hsh _ _ rfl
    obtain ⟨h₂, h₃⟩ := h₁ hok
    refine ⟨?_, fun i p d hp hd => h₃ i p d hp (by simpa using hd)⟩
    rcases h₂ with h₂ | h₂
    · simpa using h₂
    · rw [h₂]; simp
  refine ⟨⟨there, fun hh => ?_⟩, fun hok i p hp => ?_⟩
  · obtain ⟨c', h₁, _⟩ := back hh
    rw [h₁]
  · obtain ⟨c', h₁, _, _, h₄⟩ := back (there hok)
    have := h₄ i p hp
    rw [Nat.zero_add] at this
    rw [h₁, this]

/-- The other system has a third port, and the vector is too long: both are ignored. -/
theorem fix_from_cuts :
    ∃ other : System Nat Nat, history fresh [.vectorInput none [0, 0, 0], .abstractInput none (.other 3 0), .vectorInput none [0]] = some other ∧
      fixInputsFrom 0 copySystem other ⟨[.size 3, .type (some 3), .size 1], [some (.vector [1, 2, 3]), none, some (.vector [4])]⟩
        ⟨copyCheckers, [none, none]⟩ = (⟨copyCheckers, [some (.vector [1, 2]), none]⟩, .ok ()) :=
  ⟨⟨[⟨['u', '0'], some 3⟩, ⟨['u', '1'], none⟩, ⟨['u', '2'], some 1⟩],
    [some (.vector [0, 0, 0]), some (.other 3 0), some (.vector [0])], [], 0⟩, by decide +kernel⟩

/-- What a failed call answers: an exception, or undefined behavior when a vector is too short. -/
theorem fix_from_fails_partial (unset : K) (ds : List (Decl K V)) (hds : ∀ d ∈ ds, d.plain = false) (s other : System K V)
    (h : history fresh ds = some s) (c₀ c oc : Context K V) (hc : makeContext unset s = .ok c₀) (os : List (Int × Datum K V))
    (hos : fixes c₀ os = some c) (e : Err) (he : (fixInputsFrom unset s other oc c).2 = .error e) :
    (e = .outOfRange ∧ other.inputs.length < (declared ds).length) ∨ e = .throws ∨
      (e = .ub ∧ ∃ (i : Nat) (p : Declared K V) (n : Nat) (xs : List K),
        (declared ds)[i]? = some p ∧ p.size = some n ∧ evalOptional oc i = some (.vector xs) ∧ xs.length < n) := by
  have k := keeps_history ds hds keeps_fresh h
  rw [show ds.foldl withDecl [] = declared ds from rfl] at k
  rw [keeps_makeContext unset k] at hc
  cases hc
  have f := fits_fixes os (fits_fresh (declared ds)) hos
  unfold fixInputsFrom at he
  rw [k.inputs] at he
  obtain ⟨_, h₂⟩ := fixFrom_takes unset k (other := other) oc (declared ds) 0 c f (fun j p hp => by simpa using hp) _ _ rfl
  simpa using h₂ e he

/-- A vector that is too short is read past its end. -/
theorem fix_from_short_ub :
    ∃ other : System Nat Nat, history fresh [.vectorInput none [0], .abstractInput none (.other 3 0)] = some other ∧
      (fixInputsFrom 0 copySystem other ⟨[.size 1, .type (some 3)], [some (.vector [1]), none]⟩ ⟨copyCheckers, [none, none]⟩).2 =
        .error .ub :=
  ⟨⟨[⟨['u', '0'], some 1⟩, ⟨['u', '1'], none⟩], [some (.vector [0]), some (.other 3 0)], [], 0⟩, by decide +kernel⟩

/-- A failed call leaves the ports that come before the one that failed with their new values. -/
theorem fix_from_not_atomic :
    ∃ other : System Nat Nat, history fresh [.vectorInput none [0, 0]] = some other ∧
      fixInputsFrom 0 copySystem other ⟨[.size 2], [some (.vector [1, 2])]⟩ ⟨copyCheckers, [none, none]⟩ =
        (⟨copyCheckers, [some (.vector [1, 2]), none]⟩, .error .outOfRange) :=
  ⟨⟨[⟨['u', '0'], some 2⟩], [some (.vector [0, 0])], [], 0⟩, by decide +kernel⟩

end Maliput.Props
