import Mathlib.Tactic.Common
import Verif.Spec.CopyablePtr

set_option autoImplicit false
set_option linter.unusedSectionVars false

/-! Lemmas on copyable pointers: what each operation does to a memory that stands for values. -/
namespace Maliput.CopyablePtr

open Maliput.CopyablePtr.Spec (Values)

section
variable {V : Type} {clone : V → Except Err V} {m : Memory V} {s : Values V}

/-- The memory stands for the values. -/
structure StandsFor (m : Memory V) (s : Values V) : Prop where
  values : ∀ i, s i = (m.held i).bind m.objects
  live : ∀ i a, m.held i = some a → ∃ v, m.objects a = some v
  owned : ∀ a v, m.objects a = some v → ∃ i, m.held i = some a
  one : ∀ i j a, m.held i = some a → m.held j = some a → i = j
  fresh : ∀ a v, m.objects a = some v → a < m.unused

theorem StandsFor.fresh_held (h : StandsFor m s) {i a : Nat} (e : m.held i = some a) : a < m.unused := by
  obtain ⟨v, hv⟩ := h.live i a e
  exact h.fresh a v hv

theorem StandsFor.none_iff (h : StandsFor m s) {i : Nat} : s i = none ↔ m.held i = none := by
  rw [h.values i]
  cases e : m.held i with
  | none => simp
  | some a => obtain ⟨v, hv⟩ := h.live i a e; simp [hv]

theorem StandsFor.some_of (h : StandsFor m s) {i : Nat} {v : V} (e : s i = some v) :
    ∃ a, m.held i = some a ∧ m.objects a = some v := by
  rw [h.values i] at e
  cases e' : m.held i with
  | none => rw [e'] at e; cases e
  | some a => rw [e'] at e; exact ⟨a, rfl, e⟩

/-- Clearing a container deletes its object. -/
theorem clear_stands (h : StandsFor m s) (i : Nat) :
    StandsFor (CopyablePtr.clear m i).1 (s.put i none) ∧ (CopyablePtr.clear m i).2 = .ok () := by
  unfold CopyablePtr.clear resetTo
  cases e : m.held i with
  | none =>
    refine ⟨⟨fun j => ?_, fun j a => ?_, fun a v hv => ?_, fun j k a => ?_, h.fresh⟩, rfl⟩
    · simp only [Values.put, CopyablePtr.set]
      split
      · rfl
      · exact h.values j
    · simp only [CopyablePtr.set]
      split
      · simp
      · exact h.live j a
    · obtain ⟨j, hj⟩ := h.owned a v hv
      refine ⟨j, ?_⟩
      simp only [CopyablePtr.set]
      rw [if_neg (by rintro rfl; rw [e] at hj; cases hj)]
      exact hj
    · simp only [CopyablePtr.set]
      split
      · simp
      · split
        · simp
        · exact h.one j k a
  | some a =>
    obtain ⟨v, hv⟩ := h.live i a e
    simp only [delete, hv]
    refine ⟨⟨fun j => ?_, fun j b => ?_, fun b w => ?_, fun j k b => ?_, fun b w => ?_⟩, trivial⟩
    · simp only [Values.put, CopyablePtr.set]
      split
      · rfl
      · rename_i hji
        rw [h.values j]
        cases ej : m.held j with
        | none => rfl
        | some b =>
          simp only [Option.bind_some, CopyablePtr.set]
          rw [if_neg (by rintro rfl; exact hji (h.one j i b ej e))]
    · simp only [CopyablePtr.set]
      split
      · simp
      · rename_i hji
        intro hj
        rw [if_neg (by rintro rfl; exact hji (h.one j i b hj e))]
        exact h.live j b hj
    · simp only [CopyablePtr.set]
      split
      · simp
      · rename_i hba
        intro hw
        obtain ⟨j, hj⟩ := h.owned b w hw
        refine ⟨j, ?_⟩
        rw [if_neg (by rintro rfl; rw [e] at hj; cases hj; exact hba rfl)]
        exact hj
    · simp only [CopyablePtr.set]
      split
      · simp
      · split
        · simp
        · exact h.one j k b
    · simp only [CopyablePtr.set]
      split
      · simp
      · exact h.fresh b w

/-- A container takes an object that no container holds. -/
theorem takeNew_stands (h : StandsFor m s) (i : Nat) (v : V) :
    StandsFor (CopyablePtr.takeNew m i v).1 (s.put i (some v)) ∧ (CopyablePtr.takeNew m i v).2 = .ok () := by
  obtain ⟨hc, ho⟩ := clear_stands h i
  have hnext : (CopyablePtr.clear m i).1.unused = m.unused := by
    unfold CopyablePtr.clear resetTo
    split
    · rfl
    · unfold delete; split <;> rfl
  -- taking a new object is clearing, and then holding it
  have key : CopyablePtr.takeNew m i v =
      (Memory.mk (CopyablePtr.set (CopyablePtr.clear m i).1.objects m.unused (some v)) (m.unused + 1)
        (CopyablePtr.set (CopyablePtr.clear m i).1.held i (some m.unused)), .ok ()) := by
    unfold CopyablePtr.takeNew CopyablePtr.clear resetTo
    simp only [allocate]
    cases e : m.held i with
    | none =>
      simp only [Prod.mk.injEq, and_true, Memory.mk.injEq, true_and]
      funext j
      simp only [CopyablePtr.set]
      split <;> rfl
    | some a =>
      obtain ⟨w, hw⟩ := h.live i a e
      have hlt := h.fresh a w hw
      have h1 : CopyablePtr.set m.objects m.unused (some v) a = some w := by
        simp only [CopyablePtr.set]
        rw [if_neg (by omega), hw]
      simp only [delete, h1, hw, Prod.mk.injEq, and_true, Memory.mk.injEq, true_and]
      refine ⟨?_, ?_⟩
      · funext b
        simp only [CopyablePtr.set]
        split
        · rename_i hb
          rw [if_neg (by omega)]
        · rfl
      · funext j
        simp only [CopyablePtr.set]
        split <;> rfl
  rw [key]
  generalize CopyablePtr.clear m i = r at hc ho hnext
  obtain ⟨m', o⟩ := r
  dsimp only at hc hnext ⊢
  rw [← hnext]
  have hi : m'.held i = none := (StandsFor.none_iff hc (i := i)).1 (by simp [Values.put])
  refine ⟨⟨fun j => ?_, fun j b => ?_, fun b w => ?_, fun j k b => ?_, fun b w => ?_⟩, rfl⟩
  · have := hc.values j
    simp only [Values.put, CopyablePtr.set] at this ⊢
    by_cases hj : j = i
    · rw [if_pos hj, if_pos hj]
      simp [CopyablePtr.set]
    · rw [if_neg hj] at this
      rw [if_neg hj, if_neg hj, this]
      cases ej : m'.held j with
      | none => rfl
      | some b =>
        simp only [Option.bind_some, CopyablePtr.set]
        rw [if_neg (by have := hc.fresh_held ej; omega)]
  · simp only [CopyablePtr.set]
    split
    · intro e; cases e; exact ⟨v, if_pos rfl⟩
    · intro e
      rw [if_neg (by have := hc.fresh_held e; omega)]
      exact hc.live j b e
  · simp only [CopyablePtr.set]
    split
    · rename_i hb; exact fun _ => ⟨i, by rw [if_pos rfl, hb]⟩
    · intro e
      obtain ⟨j, hj⟩ := hc.owned b w e
      refine ⟨j, ?_⟩
      rw [if_neg (by rintro rfl; rw [hi] at hj; cases hj)]
      exact hj
  · simp only [CopyablePtr.set]
    split
    · split
      · intros; simp_all
      · intro e1 e2
        cases e1
        have := hc.fresh_held e2; omega
    · split
      · intro e1 e2
        cases e2
        have := hc.fresh_held e1; omega
      · exact hc.one j k b
  · simp only [CopyablePtr.set]
    split
    · intro _; omega
    · intro e
      have := hc.fresh b w e; omega

/-- Copying the object of a container and resetting another one to the copy is taking a new object. -/
theorem copy_reset {a : Nat} {v w : V} (hv : m.objects a = some v) (hw : clone v = .ok w) (i : Nat) :
    resetCopy clone m i (some a) = CopyablePtr.takeNew m i w := by
  simp [resetCopy, copyOrNull, object, hv, hw, bind, Except.bind, CopyablePtr.takeNew]

theorem copy_throws {a : Nat} {v : V} {e : Err} (hv : m.objects a = some v) (hw : clone v = .error e) (i : Nat) :
    resetCopy clone m i (some a) = (m, .error e) := by
  simp [resetCopy, copyOrNull, object, hv, hw, bind, Except.bind]

theorem moveAssign_stands (h : StandsFor m s) {i j : Nat} (hij : i ≠ j) :
    StandsFor (CopyablePtr.moveAssign m i j).1 ((s.put j none).put i (s j)) ∧ (CopyablePtr.moveAssign m i j).2 = .ok () := by
  obtain ⟨hc, ho⟩ := clear_stands h i
  -- moving is clearing the target, and then moving the address
  have key : CopyablePtr.moveAssign m i j = ({ (CopyablePtr.clear m i).1 with
      held := CopyablePtr.set (CopyablePtr.set (CopyablePtr.clear m i).1.held j none) i (m.held j) }, .ok ()) := by
    unfold CopyablePtr.moveAssign CopyablePtr.clear resetTo
    have hs : CopyablePtr.set m.held j none i = m.held i := if_neg hij
    have hh : ∀ p q : Option Nat, CopyablePtr.set (CopyablePtr.set (CopyablePtr.set m.held i q) j none) i p =
        CopyablePtr.set (CopyablePtr.set m.held j none) i p := by
      intro p q
      funext k
      simp only [CopyablePtr.set]
      split
      · rfl
      · split
        · rfl
        · rfl
    dsimp only
    rw [hs]
    cases e : m.held i with
    | none => simp only [hh]
    | some a =>
      obtain ⟨v, hv⟩ := h.live i a e
      simp only [delete, hv, hh]
  have hjh : (CopyablePtr.clear m i).1.held j = m.held j := by
    unfold CopyablePtr.clear resetTo
    split
    · exact if_neg (Ne.symm hij)
    · unfold delete
      split <;> exact if_neg (Ne.symm hij)
  rw [key, ← hjh]
  have hsj : s j = (s.put i none) j := (if_neg (Ne.symm hij)).symm
  rw [hsj]
  have hput : ((s.put j none).put i ((s.put i none) j)) = ((s.put i none).put j none).put i ((s.put i none) j) := by
    funext k
    simp only [Values.put]
    split
    · rfl
    · split
      · rfl
      · rfl
  rw [hput]
  have hi : (CopyablePtr.clear m i).1.held i = none := (StandsFor.none_iff hc (i := i)).1 (by simp [Values.put])
  generalize s.put i none = s' at hc
  generalize CopyablePtr.clear m i = r at hc ho hi
  obtain ⟨m', o⟩ := r
  dsimp only at hc hi ⊢
  refine ⟨⟨fun k => ?_, fun k b => ?_, fun b w => ?_, fun k l b => ?_, hc.fresh⟩, rfl⟩
  · simp only [Values.put, CopyablePtr.set]
    split
    · exact hc.values j
    · split
      · rfl
      · exact hc.values k
  · simp only [CopyablePtr.set]
    split
    · exact hc.live j b
    · split
      · simp
      · exact hc.live k b
  · intro e
    obtain ⟨k, hk⟩ := hc.owned b w e
    by_cases hkj : k = j
    · subst hkj
      exact ⟨i, by simp [CopyablePtr.set, hk]⟩
    · refine ⟨k, ?_⟩
      simp only [CopyablePtr.set]
      rw [if_neg (by rintro rfl; rw [hi] at hk; cases hk), if_neg hkj]
      exact hk
  · simp only [CopyablePtr.set]
    intro e1 e2
    by_cases h1 : k = i <;> by_cases h2 : l = i
    · rw [h1, h2]
    · rw [if_pos h1] at e1
      rw [if_neg h2] at e2
      split at e2
      · cases e2
      · rename_i hl
        exact absurd (hc.one l j b e2 e1) hl
    · rw [if_neg h1] at e1
      rw [if_pos h2] at e2
      split at e1
      · cases e1
      · rename_i hl
        exact absurd (hc.one k j b e1 e2) hl
    · rw [if_neg h1] at e1
      rw [if_neg h2] at e2
      split at e1
      · cases e1
      · split at e2
        · cases e2
        · exact hc.one k l b e1 e2

theorem moveAssign_self (m : Memory V) (i : Nat) : CopyablePtr.moveAssign m i i = (m, .ok ()) := by
  unfold CopyablePtr.moveAssign resetTo
  have h1 : CopyablePtr.set m.held i none i = none := if_pos rfl
  dsimp only
  rw [h1]
  simp only [Prod.mk.injEq, and_true]
  have h2 : CopyablePtr.set (CopyablePtr.set m.held i none) i (m.held i) = m.held := by
    funext k
    simp only [CopyablePtr.set]
    split
    · rename_i hk; rw [hk]
    · rfl
  rw [h2]

theorem write_stands (h : StandsFor m s) {i : Nat} {v : V} (e : s i = some v) (f : V → V) :
    StandsFor (CopyablePtr.write m i f).1 (s.put i (some (f v))) ∧ (CopyablePtr.write m i f).2 = .ok () := by
  obtain ⟨a, ha, hv⟩ := h.some_of e
  unfold CopyablePtr.write
  rw [ha]
  simp only [object, hv]
  refine ⟨⟨fun j => ?_, fun j b hb => ?_, fun b w => ?_, h.one, fun b w => ?_⟩, trivial⟩
  · simp only [Values.put]
    split
    · rename_i hj
      rw [hj, ha]
      simp [CopyablePtr.set]
    · rename_i hji
      rw [h.values j]
      cases ej : m.held j with
      | none => rfl
      | some b =>
        simp only [Option.bind_some, CopyablePtr.set]
        rw [if_neg (by rintro rfl; exact hji (h.one j i b ej ha))]
  · simp only [CopyablePtr.set]
    split
    · exact ⟨_, rfl⟩
    · exact h.live j b hb
  · simp only [CopyablePtr.set]
    split
    · rename_i hb; exact fun _ => ⟨i, by rw [hb]; exact ha⟩
    · exact h.owned b w
  · simp only [CopyablePtr.set]
    split
    · rename_i hb; exact fun _ => by rw [hb]; exact h.fresh a v hv
    · exact h.fresh b w

theorem step_stands (h : StandsFor m s) (o : Op V) :
    StandsFor (CopyablePtr.step clone m o).1 (Spec.step clone s o).1 ∧ (CopyablePtr.step clone m o).2 = (Spec.step clone s o).2 := by
  cases o with
  | takeNew i v => exact takeNew_stands h i v
  | clear i => exact clear_stands h i
  | copyRef i j =>
    simp only [CopyablePtr.step, Spec.step, CopyablePtr.copyRef]
    cases e : s j with
    | none => rw [h.none_iff.1 e]; exact ⟨h, rfl⟩
    | some v =>
      obtain ⟨a, ha, hv⟩ := h.some_of e
      rw [ha]
      dsimp only
      cases hw : clone v with
      | error e => rw [copy_throws hv hw]; exact ⟨h, rfl⟩
      | ok w => rw [copy_reset hv hw]; exact takeNew_stands h i w
  | copyAssign i j =>
    simp only [CopyablePtr.step, Spec.step, CopyablePtr.copyAssign]
    by_cases hij : i = j
    · rw [if_pos hij, if_pos hij]; exact ⟨h, rfl⟩
    · rw [if_neg hij, if_neg hij]
      rw [if_neg (by
        rw [not_not]
        cases hi : m.held i with
        | none => exact Or.inr rfl
        | some a => exact Or.inl fun hj => hij (h.one i j a hi hj.symm))]
      cases e : s j with
      | none =>
        rw [h.none_iff.1 e]
        exact clear_stands h i
      | some v =>
        obtain ⟨a, ha, hv⟩ := h.some_of e
        rw [ha]
        dsimp only
        cases hw : clone v with
        | error e => rw [copy_throws hv hw]; exact ⟨h, rfl⟩
        | ok w => rw [copy_reset hv hw]; exact takeNew_stands h i w
  | moveAssign i j =>
    simp only [CopyablePtr.step, Spec.step]
    by_cases hij : i = j
    · rw [if_pos hij, ← hij, moveAssign_self]; exact ⟨h, rfl⟩
    · rw [if_neg hij]; exact moveAssign_stands h hij
  | write i f =>
    simp only [CopyablePtr.step, Spec.step]
    cases e : s i with
    | none =>
      simp only [CopyablePtr.write, h.none_iff.1 e]
      exact ⟨h, trivial⟩
    | some v => exact write_stands h e f

theorem run_stands (ops : List (Op V)) : ∀ {m : Memory V} {s : Values V}, StandsFor m s →
    StandsFor (CopyablePtr.run clone m ops).1 (Spec.run clone s ops).1 ∧
      (CopyablePtr.run clone m ops).2 = (Spec.run clone s ops).2 := by
  induction ops with
  | nil => exact fun h => ⟨h, rfl⟩
  | cons o os ih =>
    intro m s h
    obtain ⟨h1, h2⟩ := step_stands (clone := clone) h o
    obtain ⟨h3, h4⟩ := ih h1
    exact ⟨h3, by simp only [CopyablePtr.run, Spec.run]; rw [h2, h4]⟩

theorem empty_stands : StandsFor (CopyablePtr.empty : Memory V) fun _ => none :=
  ⟨fun _ => rfl, nofun, nofun, nofun, nofun⟩

end
end Maliput.CopyablePtr
