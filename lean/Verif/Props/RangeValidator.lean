import Mathlib.Tactic.Linarith
import Mathlib.Tactic.NormNum
import Mathlib.Tactic.FieldSimp
import Mathlib.Algebra.Order.Group.Abs
import Verif.Lemmas.Monad
import Verif.Spec.RangeValidator

set_option autoImplicit false

/-!
C37: the range validator.
-/
namespace Maliput.Props
open Maliput RangeValidator RangeValidator.Spec

/-- With an absolute epsilon, construction succeeds exactly for a positive tolerance, an epsilon between
zero and the tolerance, and a range at least as long as epsilon. -/
theorem rangeValidator_absolute_iff (min max tol eps : ℚ) (v : RangeValidator) :
    getAbsolute min max tol eps = .ok v ↔
      0 < tol ∧ 0 ≤ eps ∧ eps ≤ tol ∧ eps ≤ max - min ∧ v = ⟨min, max, tol, eps⟩ := by
  simp only [getAbsolute, make, bind_ok, throwUnless_ok, pure_ok, decide_eq_true_eq, reduceCtorEq, if_false]
  constructor
  · rintro ⟨-, h1, -, h2, -, h3, -, h4, -, h5, rfl⟩
    exact ⟨h1, h2, h3, by linarith, rfl⟩
  · rintro ⟨h1, h2, h3, h4, rfl⟩
    exact ⟨(), h1, (), h2, (), h3, (), by linarith, (), by linarith, rfl⟩

example : getAbsolute 0 10 (1 / 2) (1 / 10) = .ok ⟨0, 10, 1 / 2, 1 / 10⟩ := by decide +kernel

/-- With a relative epsilon, construction succeeds exactly for a positive tolerance and a product of
epsilon and the length of the range that is between zero and the tolerance and at most the length. -/
theorem rangeValidator_relative_iff (min max tol eps : ℚ) (v : RangeValidator) :
    getRelative min max tol eps = .ok v ↔
      0 < tol ∧ 0 ≤ (max - min) * eps ∧ (max - min) * eps ≤ tol ∧ (max - min) * eps ≤ max - min ∧
        v = ⟨min, max, tol, (max - min) * eps⟩ := by
  simp only [getRelative, make, bind_ok, throwUnless_ok, pure_ok, decide_eq_true_eq, if_true]
  constructor
  · rintro ⟨-, h1, -, h2, -, h3, -, h4, -, h5, rfl⟩
    exact ⟨h1, h2, h3, by linarith, rfl⟩
  · rintro ⟨h1, h2, h3, h4, rfl⟩
    exact ⟨(), h1, (), h2, (), h3, (), by linarith, (), by linarith, rfl⟩

example : getRelative 0 10 (1 / 2) (1 / 100) = .ok ⟨0, 10, 1 / 2, 1 / 10⟩ := by decide +kernel

/-- Every other construction throws (it never ends in another way). -/
theorem rangeValidator_make_throws (min max tol eps : ℚ) (e : Err) :
    (getAbsolute min max tol eps = .error e → e = .throws) ∧
      (getRelative min max tol eps = .error e → e = .throws) := by
  have key : ∀ {α : Type} (b : Bool) (f : Unit → Except Err α), (∀ e, f () = .error e → e = .throws) →
      ∀ e, (throwUnless b >>= f) = .error e → e = .throws := by
    intro α b f hf e h
    cases b
    · cases h; rfl
    · exact hf e h
  unfold getAbsolute getRelative make
  constructor <;>
  · revert e
    iterate 5 refine key _ _ ?_
    intro e h
    cases h

/-- What every validator satisfies. -/
theorem rangeValidator_wellFormed (v : RangeValidator) (hv : Constructed v) :
    0 < v.tolerance ∧ 0 ≤ v.epsilon ∧ v.epsilon ≤ v.tolerance ∧ v.epsilon ≤ v.max - v.min := by
  obtain ⟨min, max, tol, eps, h | h⟩ := hv
  · obtain ⟨h1, h2, h3, h4, rfl⟩ := (rangeValidator_relative_iff ..).1 h
    exact ⟨h1, h2, h3, h4⟩
  · obtain ⟨h1, h2, h3, h4, rfl⟩ := (rangeValidator_absolute_iff ..).1 h
    exact ⟨h1, h2, h3, h4⟩

/-- A number outside the range extended by the tolerance is rejected with an exception. -/
theorem rangeValidator_rejects (v : RangeValidator) (s : ℚ) :
    ¬Accepted v s ↔ v.apply s = .error .throws := by
  unfold Accepted RangeValidator.apply clamp throwUnless
  by_cases h1 : v.min - v.tolerance ≤ s <;> by_cases h2 : s ≤ v.max + v.tolerance <;>
    simp [h1, h2, bind, Except.bind]
  split <;> [simp; (split <;> [simp; (split <;> simp)])]

/-- The full claim fails: a validator can be constructed whose bounds `min + epsilon` and `max - epsilon`
are in the wrong order, and then every accepted number makes `std::clamp` undefined. -/
theorem rangeValidator_undefined :
    ∃ v, Constructed v ∧ Accepted v (1 / 2) ∧ ∀ s, Accepted v s → v.apply s = .error .ub := by
  refine ⟨⟨0, 1, 1, 3 / 4⟩, ⟨0, 1, 1, 3 / 4, .inr (by decide +kernel)⟩, by unfold Accepted; norm_num, ?_⟩
  rintro s ⟨h1, h2⟩
  simp only [RangeValidator.apply, throwUnless, clamp, bind, Except.bind]
  norm_num at h1 h2 ⊢
  simp [h1, h2]

/-- A number is accepted with defined behaviour exactly if twice epsilon fits in the range. -/
theorem rangeValidator_defined_iff (v : RangeValidator) (s : ℚ) (hs : Accepted v s) :
    (∃ x, v.apply s = .ok x) ↔ 2 * v.epsilon ≤ v.max - v.min := by
  unfold RangeValidator.apply clamp throwUnless
  simp only [hs.1, hs.2, decide_true, if_true, bind, Except.bind]
  constructor
  · rintro ⟨x, hx⟩
    split at hx
    · cases hx
    · linarith
  · intro h
    rw [if_neg (by linarith)]
    split <;> [exact ⟨_, rfl⟩; (split <;> exact ⟨_, rfl⟩)]

example : Accepted ⟨0, 10, 1 / 2, 1 / 10⟩ (-1 / 4) ∧ Constructed ⟨0, 10, 1 / 2, 1 / 10⟩ ∧
    (2 : ℚ) * (1 / 10) ≤ 10 - 0 :=
  ⟨by unfold Accepted; norm_num, ⟨0, 10, 1 / 2, 1 / 10, .inr (by decide +kernel)⟩, by norm_num⟩

/-- Whatever the validator returns is the closest number of the inner range.
(Missing from the full claim: a validator whose epsilon is over half of the range is undefined for every
accepted number, `rangeValidator_undefined`.) -/
theorem rangeValidator_closest_partial (v : RangeValidator) (h2 : 2 * v.epsilon ≤ v.max - v.min) (s x : ℚ) :
    v.apply s = .ok x ↔ Accepted v s ∧ Closest v s x := by
  have key : ∀ x, (Accepted v s ∧ v.apply s = .ok x) →  Accepted v s ∧ Closest v s x := by
    rintro x ⟨ha, h⟩
    refine ⟨ha, ?_⟩
    simp only [RangeValidator.apply, clamp, throwUnless, ha.1, ha.2, decide_true, if_true, bind,
      Except.bind] at h
    rw [if_neg (by linarith)] at h
    unfold Closest Inner
    split at h
    · cases h
      refine ⟨⟨le_refl _, by linarith⟩, fun y hy => ?_⟩
      rw [abs_of_nonpos (by linarith), abs_of_nonpos (by linarith)]; linarith
    · split at h
      · cases h
        refine ⟨⟨by linarith, le_refl _⟩, fun y hy => ?_⟩
        rw [abs_of_nonneg (by linarith), abs_of_nonneg (by linarith)]; linarith
      · cases h
        refine ⟨⟨by linarith, by linarith⟩, fun y hy => ?_⟩
        rw [sub_self, abs_zero]; exact abs_nonneg _
  constructor
  · intro h
    refine key x ⟨?_, h⟩
    by_contra hn
    rw [(rangeValidator_rejects v s).1 hn] at h
    cases h
  · rintro ⟨ha, hc⟩
    obtain ⟨y, hy⟩ := (rangeValidator_defined_iff v s ha).2 h2
    have hy' := (key y ⟨ha, hy⟩).2
    rw [hy]
    have e : |s - x| = |s - y| := le_antisymm (hc.2 y hy'.1) (hy'.2 x hc.1)
    have hmid : Inner v ((x + y) / 2) := by
      unfold Closest Inner at *
      obtain ⟨⟨a1, a2⟩, -⟩ := hc
      obtain ⟨⟨b1, b2⟩, -⟩ := hy'
      constructor <;> linarith
    have hm := hc.2 _ hmid
    rcases abs_eq_abs.1 e with e | e
    · congr 1; linarith
    · rw [show s - (x + y) / 2 = 0 by linarith, abs_zero] at hm
      have h0 : s - x = 0 := abs_eq_zero.1 (le_antisymm hm (abs_nonneg _))
      congr 1; linarith

example : (⟨0, 10, 1 / 2, 1 / 10⟩ : RangeValidator).apply (-1 / 4) = .ok (1 / 10) := by decide +kernel
example : (⟨0, 10, 1 / 2, 1 / 10⟩ : RangeValidator).apply 5 = .ok 5 := by decide +kernel
example : (⟨0, 10, 1 / 2, 1 / 10⟩ : RangeValidator).apply 11 = .error .throws := by decide +kernel

/-- A relative epsilon of at most one half never gives undefined behaviour: every constructed validator
maps every accepted number to the closest one of the inner range. -/
theorem rangeValidator_relative_half (min max tol eps : ℚ) (he : eps ≤ 1 / 2) (v : RangeValidator)
    (h : getRelative min max tol eps = .ok v) (s : ℚ) (hs : Accepted v s) :
    ∃ x, v.apply s = .ok x ∧ Closest v s x := by
  obtain ⟨h1, h2, h3, h4, rfl⟩ := (rangeValidator_relative_iff ..).1 h
  have hl : 0 ≤ max - min := by linarith
  have h5 : 2 * ((max - min) * eps) ≤ max - min := by nlinarith
  obtain ⟨x, hx⟩ := (rangeValidator_defined_iff _ s hs).2 h5
  exact ⟨x, hx, ((rangeValidator_closest_partial _ h5 s x).1 hx).2⟩

example : (1 / 100 : ℚ) ≤ 1 / 2 ∧ getRelative 0 10 (1 / 2) (1 / 100) = .ok ⟨0, 10, 1 / 2, 1 / 10⟩ :=
  ⟨by norm_num, by decide +kernel⟩

/-- The map is monotone. -/
theorem rangeValidator_monotone (v : RangeValidator) (s t x y : ℚ) (h : s ≤ t) (hx : v.apply s = .ok x)
    (hy : v.apply t = .ok y) : x ≤ y := by
  simp only [RangeValidator.apply, bind_ok, throwUnless_ok, decide_eq_true_eq, clamp] at hx hy
  obtain ⟨-, hx1, -, hx2, hx⟩ := hx
  obtain ⟨-, hy1, -, hy2, hy⟩ := hy
  repeat' split at hx
  all_goals repeat' split at hy
  all_goals simp_all
  all_goals linarith

example : (⟨0, 10, 1 / 2, 1 / 10⟩ : RangeValidator).apply 3 = .ok 3 ∧
    (⟨0, 10, 1 / 2, 1 / 10⟩ : RangeValidator).apply 10 = .ok (99 / 10) := by decide +kernel

/-- Validating a validated number does not change it. -/
theorem rangeValidator_idempotent (v : RangeValidator) (hv : Constructed v) (s x : ℚ) (hx : v.apply s = .ok x) :
    v.apply x = .ok x := by
  obtain ⟨h1, h2, h3, h4⟩ := rangeValidator_wellFormed v hv
  have ha : Accepted v s := by
    by_contra hn
    rw [(rangeValidator_rejects v s).1 hn] at hx
    cases hx
  have h5 := (rangeValidator_defined_iff v s ha).1 ⟨x, hx⟩
  have hc := ((rangeValidator_closest_partial v h5 s x).1 hx).2
  refine (rangeValidator_closest_partial v h5 x x).2 ⟨?_, hc.1, fun y hy => ?_⟩
  · have := hc.1
    unfold Inner at this
    unfold Accepted
    constructor <;> linarith [this.1, this.2]
  · rw [sub_self, abs_zero]; exact abs_nonneg _

/-- A number is moved by at most the tolerance plus epsilon. -/
theorem rangeValidator_moves_little (v : RangeValidator) (hv : Constructed v) (s x : ℚ) (hx : v.apply s = .ok x) :
    |s - x| ≤ v.tolerance + v.epsilon := by
  obtain ⟨h1, h2, h3, h4⟩ := rangeValidator_wellFormed v hv
  simp only [RangeValidator.apply, bind_ok, throwUnless_ok, decide_eq_true_eq, clamp] at hx
  obtain ⟨-, hx1, -, hx2, hx⟩ := hx
  repeat' split at hx
  all_goals simp only [reduceCtorEq, Except.ok.injEq] at hx
  all_goals subst hx
  all_goals rw [abs_le]; constructor <;> linarith

/-- A number of the inner range is returned unchanged. -/
theorem rangeValidator_inner (v : RangeValidator) (hv : Constructed v) (s : ℚ) (hs : Inner v s) :
    v.apply s = .ok s := by
  obtain ⟨h1, h2, h3, h4⟩ := rangeValidator_wellFormed v hv
  refine (rangeValidator_closest_partial v (by unfold Inner at hs; linarith [hs.1, hs.2]) s s).2
    ⟨?_, hs, fun y _ => by rw [sub_self, abs_zero]; exact abs_nonneg _⟩
  unfold Inner at hs
  unfold Accepted
  constructor <;> linarith [hs.1, hs.2]

example : Inner ⟨0, 10, 1 / 2, 1 / 10⟩ 5 ∧ Constructed ⟨0, 10, 1 / 2, 1 / 10⟩ :=
  ⟨by unfold Inner; norm_num, ⟨0, 10, 1 / 2, 1 / 10, .inr (by decide +kernel)⟩⟩

end Maliput.Props
