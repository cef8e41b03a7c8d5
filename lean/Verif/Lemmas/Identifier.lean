import Mathlib.Tactic.Common
import Verif.Lemmas.Monad
import Verif.Spec.Identifier

set_option autoImplicit false
set_option linter.unusedSectionVars false

/-! Lemmas on identifiers. -/
namespace Maliput.Ident

open Maliput.Ident.Spec (Calls)

/-- The identifiers of a world stand for calls: `val` gives the number of each call, `tagOf` its tag. -/
structure StandsFor (w : World) (c : Calls) (val : Nat → Int) (tagOf : Nat → Nat) : Prop where
  pos : ∀ n, n < c.made → 0 < val n ∧ val n < w.counter (tagOf n)
  order : ∀ n m, n < m → m < c.made → tagOf n = tagOf m → val n < val m
  bound : ∀ tag, 0 < w.counter tag ∧ w.counter tag ≤ c.made + 1
  got : ∀ t, match c.got t with
    | none => w.got t = none
    | some (tag, n) => n < c.made ∧ tagOf n = tag ∧ w.got t = some (tag, val n)
  vars : ∀ tag x, match c.vars tag x with
    | none => w.vars tag x = 0
    | some n => n < c.made ∧ tagOf n = tag ∧ w.vars tag x = val n

theorem put_apply {α : Type} (f : Nat → α) (i : Nat) (a : α) (j : Nat) : put f i a j = if j = i then a else f j := rfl

theorem start_stands : StandsFor start Spec.start (fun _ => 0) (fun _ => 0) :=
  ⟨nofun, nofun, fun _ => ⟨by simp [start], by simp [start, Spec.start]⟩, fun _ => rfl, fun _ _ => rfl⟩

theorem increment_eq {x : Int} (h0 : 0 < x) (h : x < 9223372036854775807) : increment x = x + 1 := by
  unfold increment
  rw [Int.bmod_eq_of_le (by omega) (by omega)]

theorem step_stands {w : World} {c : Calls} {val : Nat → Int} {tagOf : Nat → Nat} (h : StandsFor w c val tagOf)
    (s : Step) (hc : (Spec.step c s).made < 9223372036854775807) :
    ∃ val' tagOf', StandsFor (step w s) (Spec.step c s) val' tagOf' := by
  cases s with
  | get thread tag =>
    have hinc : increment (w.counter tag) = w.counter tag + 1 :=
      increment_eq (h.bound tag).1 (by have := (h.bound tag).2; simp only [Spec.step] at hc; omega)
    refine ⟨fun n => if n = c.made then w.counter tag else val n, fun n => if n = c.made then tag else tagOf n, ?_⟩
    simp only [step, getNewId, Spec.step]
    refine ⟨fun n hn => ?_, fun n m hnm hm ht => ?_, fun g => ?_, fun t => ?_, fun g x => ?_⟩
    · dsimp only at hn ⊢
      by_cases e : n = c.made
      · rw [if_pos e, if_pos e]
        simp only [put_apply, if_true]
        have := (h.bound tag).1
        rw [hinc]; omega
      · rw [if_neg e, if_neg e]
        have := h.pos n (by omega)
        refine ⟨this.1, ?_⟩
        simp only [put_apply]
        split
        · rename_i e'; rw [hinc, ← e']; omega
        · exact this.2
    · dsimp only at hm ht ⊢
      rw [if_neg (by omega)] at ht ⊢
      by_cases e : m = c.made
      · rw [if_pos e] at ht ⊢
        rw [← ht]
        exact (h.pos n (by omega)).2
      · rw [if_neg e] at ht ⊢
        exact h.order n m hnm (by omega) ht
    · have := h.bound g
      simp only [put_apply]
      split
      · rename_i e; rw [hinc, ← e]; push_cast; omega
      · push_cast; omega
    · simp only [put_apply]
      by_cases e : t = thread
      · rw [if_pos e, if_pos e]
        exact ⟨by omega, by simp, by simp⟩
      · rw [if_neg e, if_neg e]
        have := h.got t
        split at this
        · exact this
        · rename_i g n e'
          obtain ⟨h1, h2, h3⟩ := this
          exact ⟨by omega, by rw [if_neg (by omega)]; exact h2, by rw [if_neg (by omega)]; exact h3⟩
    · have := h.vars g x
      split at this
      · rename_i e'; dsimp only; rw [e']; exact this
      · rename_i n e'
        dsimp only
        rw [e']
        obtain ⟨h1, h2, h3⟩ := this
        exact ⟨by omega, by rw [if_neg (by omega)]; exact h2, by rw [if_neg (by omega)]; exact h3⟩
  | store thread x =>
    refine ⟨val, tagOf, ?_⟩
    have hg := h.got thread
    simp only [step, Spec.step]
    cases e : c.got thread with
    | none =>
      rw [e] at hg
      dsimp only at hg
      rw [hg]
      exact h
    | some p =>
      obtain ⟨tag, n⟩ := p
      rw [e] at hg
      obtain ⟨h1, h2, h3⟩ := hg
      rw [h3]
      refine ⟨h.pos, h.order, h.bound, fun t => ?_, fun g y => ?_⟩
      · simp only [put_apply]
        by_cases et : t = thread
        · rw [if_pos et, if_pos et]
        · rw [if_neg et, if_neg et]; exact h.got t
      · simp only [put_apply]
        by_cases eg : g = tag
        · subst eg
          by_cases ey : y = x
          · simp only [ey, and_self, if_true, put_apply]; exact ⟨h1, h2, trivial⟩
          · simp only [ey, and_false, if_false, if_true, put_apply]; exact h.vars g y
        · simp only [eg, false_and, if_false]; exact h.vars g y
  | copy tag x y =>
    refine ⟨val, tagOf, ?_⟩
    simp only [step, Spec.step]
    refine ⟨h.pos, h.order, h.bound, h.got, fun g z => ?_⟩
    simp only [put_apply]
    by_cases eg : g = tag
    · subst eg
      by_cases ey : z = x
      · simp only [ey, and_self, if_true, put_apply]; exact h.vars g y
      · simp only [ey, and_false, if_false, if_true, put_apply]; exact h.vars g z
    · simp only [eg, false_and, if_false]; exact h.vars g z
  | reset tag x =>
    refine ⟨val, tagOf, ?_⟩
    simp only [step, Spec.step]
    refine ⟨h.pos, h.order, h.bound, h.got, fun g z => ?_⟩
    simp only [put_apply]
    by_cases eg : g = tag
    · subst eg
      by_cases ey : z = x
      · simp only [ey, and_self, if_true, put_apply]; rfl
      · simp only [ey, and_false, if_false, if_true, put_apply]; exact h.vars g z
    · simp only [eg, false_and, if_false]; exact h.vars g z

theorem made_mono (c : Calls) (s : Step) : c.made ≤ (Spec.step c s).made := by
  cases s with
  | store t x => simp only [Spec.step]; split <;> simp
  | _ => simp [Spec.step]

theorem made_run : ∀ (ss : List Step) (c : Calls), c.made ≤ (Spec.run ss c).made
  | [], _ => le_refl _
  | s :: ss, c => (made_mono c s).trans (made_run ss _)

theorem run_stands : ∀ (ss : List Step) {w : World} {c : Calls} {val : Nat → Int} {tagOf : Nat → Nat}, StandsFor w c val tagOf →
    (Spec.run ss c).made < 9223372036854775807 → ∃ val' tagOf', StandsFor (run ss w) (Spec.run ss c) val' tagOf'
  | [], _, _, val, tagOf, h, _ => ⟨val, tagOf, h⟩
  | s :: ss, w, c, val, tagOf, h, hb => by
    obtain ⟨val', tagOf', h'⟩ := step_stands h s ((made_run ss _).trans_lt hb)
    exact run_stands ss h' hb

/-- What the variables hold after any steps. -/
theorem stands (ss : List Step) (hb : (Spec.run ss Spec.start).made < 9223372036854775807) :
    ∃ val tagOf, StandsFor (run ss start) (Spec.run ss Spec.start) val tagOf :=
  run_stands ss start_stands hb

theorem getValue_valid {a : Int} (h : 0 < a) (armed : Bool) : getValue armed a = .ok a := by
  cases armed <;> simp [getValue, throwUnless, isValid, h, bind, Except.bind, pure, Except.pure]

theorem getValue_invalid {a : Int} (h : ¬ 0 < a) : getValue true a = .error .throws := by
  have : ¬ a > 0 := h
  simp [getValue, throwUnless, isValid, this, bind, Except.bind]

theorem getValue_unarmed (a : Int) : getValue false a = .ok a := rfl

/-- The variable of a call has the number of the call. -/
theorem var_some {w : World} {c : Calls} {val : Nat → Int} {tagOf : Nat → Nat} (h : StandsFor w c val tagOf) {tag x n : Nat}
    (hx : c.vars tag x = some n) : n < c.made ∧ tagOf n = tag ∧ w.vars tag x = val n ∧ 0 < w.vars tag x := by
  have := h.vars tag x
  rw [hx] at this
  obtain ⟨h1, h2, h3⟩ := this
  exact ⟨h1, h2, h3, h3 ▸ (h.pos n h1).1⟩

theorem var_none {w : World} {c : Calls} {val : Nat → Int} {tagOf : Nat → Nat} (h : StandsFor w c val tagOf) {tag x : Nat}
    (hx : c.vars tag x = none) : w.vars tag x = 0 := by
  have := h.vars tag x
  rw [hx] at this
  exact this

/-- Numbers of calls with one tag are in the order of the calls. -/
theorem val_lt {w : World} {c : Calls} {val : Nat → Int} {tagOf : Nat → Nat} (h : StandsFor w c val tagOf) {n m : Nat}
    (hn : n < c.made) (hm : m < c.made) (ht : tagOf n = tagOf m) : val n < val m ↔ n < m := by
  constructor
  · intro hv
    rcases Nat.lt_trichotomy n m with e | e | e
    · exact e
    · subst e; omega
    · have := h.order m n e hn ht.symm; omega
  · exact fun e => h.order n m e hm ht

theorem val_eq {w : World} {c : Calls} {val : Nat → Int} {tagOf : Nat → Nat} (h : StandsFor w c val tagOf) {n m : Nat}
    (hn : n < c.made) (hm : m < c.made) (ht : tagOf n = tagOf m) : val n = val m ↔ n = m := by
  constructor
  · intro hv
    rcases Nat.lt_trichotomy n m with e | e | e
    · have := h.order n m e hm ht; omega
    · exact e
    · have := h.order m n e hn ht.symm; omega
  · rintro rfl; rfl

end Maliput.Ident
