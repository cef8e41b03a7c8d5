import Mathlib.Tactic.Common
import Verif.Spec.TypeSafeIndex
import Verif.Lemmas.Monad

set_option autoImplicit false

/-!
C147: type-safe indices.
-/
namespace Maliput.Props

open Maliput Maliput.TypeSafeIndex

private theorem assertValid_cases (x : Int) :
    (Valid x ∧ assertValid true x = .ok ()) ∨ (¬Valid x ∧ assertValid true x = .error .throws) := by
  unfold assertValid Valid maxIndex
  by_cases h : x < 0 ∨ x > 2147483647
  · exact Or.inr ⟨by omega, by simp [h]⟩
  · exact Or.inl ⟨by omega, by simp [h]⟩

private theorem noOverflow_cases (x d : Int) :
    (¬(0 < d ∧ 2147483647 < x + d) ∧ assertNoOverflow true x d = .ok ()) ∨
      ((0 < d ∧ 2147483647 < x + d) ∧ assertNoOverflow true x d = .error .throws) := by
  unfold assertNoOverflow maxIndex
  by_cases h : d > 0 ∧ x > 2147483647 - d
  · exact Or.inr ⟨by omega, by simp [h]⟩
  · refine Or.inl ⟨by omega, ?_⟩
    rw [if_neg]
    rintro ⟨_, h'⟩
    exact h h'

private theorem signed_ok {x : Int} (h : IsInt x) : signed x = .ok x := by
  unfold signed
  unfold IsInt at h
  rw [if_pos (by omega)]

private theorem bmod_eq {x : Int} (h : IsInt x) : x.bmod 4294967296 = x := by
  unfold IsInt at h
  exact Int.bmod_eq_of_le (by omega) (by omega)

/-- An index is made of exactly the numbers from 0 to 2³¹ - 1, holds that number, and gives it back; others throw. -/
theorem index_made (i : Int) :
    (∀ x, construct true i = .ok x ↔ Valid i ∧ x = i) ∧ (construct true i = .error .throws ↔ ¬Valid i) ∧
      (∀ j, toInt true i = .ok j ↔ Valid i ∧ j = i) ∧ (toInt true i = .error .throws ↔ ¬Valid i) := by
  unfold construct toInt
  rcases assertValid_cases i with ⟨h, h'⟩ | ⟨h, h'⟩
  · have : IsInt i := by unfold Valid at h; unfold IsInt; omega
    simp [h', h, bmod_eq this, bind, Except.bind, pure, Except.pure, eq_comm]
  · simp [h', h, bind, Except.bind]

/-- With assertions, an operation on an index succeeds exactly if the index, an index operand and the outcome are valid; it then gives what it
should and leaves the index so.  Otherwise it throws. -/
theorem index_arithmetic (x : Int) (op : Op) (ht : op.WellTyped) :
    ((∃ v, (run true x op).2 = .ok v) ↔ Valid x ∧ op.OperandValid ∧ Valid (x + op.delta)) ∧
    (∀ v, (run true x op).2 = .ok v → v = op.result x ∧ (run true x op).1 = x + op.delta) ∧
    (∀ e, (run true x op).2 = .error e → e = .throws) := by
  have h1 : ∀ y, Valid y → construct true y = .ok y := fun y hy => (index_made y).1 y |>.mpr ⟨hy, rfl⟩
  rcases assertValid_cases x with ⟨hv, hv'⟩ | ⟨hv, hv'⟩
  · have hxv := hv
    unfold Valid at hxv
    cases op with
    | preInc =>
      simp only [run, preInc, change, hv', bind, Except.bind, Op.OperandValid, Op.delta, Op.result]
      rcases noOverflow_cases x 1 with ⟨h, h'⟩ | ⟨h, h'⟩
      · have hs : Valid (x + 1) := by unfold Valid; omega
        rw [h', signed_ok (by unfold Valid at hs; unfold IsInt; omega)]
        simp_all
      · have hs : ¬Valid (x + 1) := by unfold Valid; omega
        rw [h']
        simp_all
    | postInc =>
      simp only [run, postInc, change, hv', bind, Except.bind, Op.OperandValid, Op.delta, Op.result]
      rcases noOverflow_cases x 1 with ⟨h, h'⟩ | ⟨h, h'⟩
      · have hs : Valid (x + 1) := by unfold Valid; omega
        rw [h', signed_ok (by unfold Valid at hs; unfold IsInt; omega)]
        dsimp only
        rw [show x + 1 - 1 = x by omega, h1 x hv]
        simp_all
      · have hs : ¬Valid (x + 1) := by unfold Valid; omega
        rw [h']
        simp_all
    | preDec =>
      simp only [run, preDec, change, hv', bind, Except.bind, Op.OperandValid, Op.delta, Op.result]
      rw [signed_ok (by unfold IsInt; omega)]
      rcases assertValid_cases (x - 1) with ⟨hs, hs'⟩ | ⟨hs, hs'⟩ <;> dsimp only <;> rw [hs'] <;>
        simp_all [pure, Except.pure, Int.sub_eq_add_neg]
    | postDec =>
      simp only [run, postDec, change, hv', bind, Except.bind, Op.OperandValid, Op.delta, Op.result]
      rw [signed_ok (by unfold IsInt; omega)]
      dsimp only
      rw [show x - 1 + 1 = x by omega, h1 x hv]
      rcases assertValid_cases (x - 1) with ⟨hs, hs'⟩ | ⟨hs, hs'⟩ <;> rw [hs'] <;>
        simp_all [Int.sub_eq_add_neg]
    | addInt i =>
      have hi : IsInt i := ht
      unfold IsInt at hi
      simp only [run, addInt, change, hv', bind, Except.bind, Op.OperandValid, Op.delta, Op.result]
      rcases noOverflow_cases x i with ⟨h, h'⟩ | ⟨h, h'⟩
      · rw [h', signed_ok (by unfold IsInt; omega)]
        rcases assertValid_cases (x + i) with ⟨hs, hs'⟩ | ⟨hs, hs'⟩ <;> dsimp only <;> rw [hs'] <;>
          simp_all [pure, Except.pure]
      · have hs : ¬Valid (x + i) := by unfold Valid; omega
        rw [h']
        simp_all
    | addIndex o =>
      simp only [run, addIndex, change, hv', bind, Except.bind, Op.OperandValid, Op.delta, Op.result]
      rcases assertValid_cases o with ⟨ho, ho'⟩ | ⟨ho, ho'⟩
      · have hov := ho
        unfold Valid at hov
        rcases noOverflow_cases x o with ⟨h, h'⟩ | ⟨h, h'⟩
        · rw [ho', h', signed_ok (by unfold IsInt; omega)]
          rcases assertValid_cases (x + o) with ⟨hs, hs'⟩ | ⟨hs, hs'⟩ <;> dsimp only <;> rw [hs'] <;>
            simp_all [pure, Except.pure]
        · have hs : ¬Valid (x + o) := by unfold Valid; omega
          rw [ho', h']
          simp_all
      · rw [ho']
        simp_all
    | subInt i =>
      obtain ⟨hi, hi'⟩ := ht
      unfold IsInt at hi
      simp only [run, subInt, change, hv', bind, Except.bind, Op.OperandValid, Op.delta, Op.result, negated, if_true]
      rw [signed_ok (x := -i) (by unfold IsInt; omega)]
      dsimp only
      rcases noOverflow_cases x (-i) with ⟨h, h'⟩ | ⟨h, h'⟩
      · rw [h', signed_ok (by unfold IsInt; omega)]
        rcases assertValid_cases (x - i) with ⟨hs, hs'⟩ | ⟨hs, hs'⟩ <;> dsimp only <;> rw [hs'] <;>
          simp_all [pure, Except.pure, Int.sub_eq_add_neg]
      · have hs : ¬Valid (x + -i) := by unfold Valid; omega
        rw [h']
        simp_all
    | subIndex o =>
      simp only [run, subIndex, change, hv', bind, Except.bind, Op.OperandValid, Op.delta, Op.result]
      rcases assertValid_cases o with ⟨ho, ho'⟩ | ⟨ho, ho'⟩
      · have hov := ho
        unfold Valid at hov
        rw [ho', signed_ok (by unfold IsInt; omega)]
        rcases assertValid_cases (x - o) with ⟨hs, hs'⟩ | ⟨hs, hs'⟩ <;> dsimp only <;> rw [hs'] <;>
          simp_all [pure, Except.pure, Int.sub_eq_add_neg]
      · rw [ho']
        simp_all
  · cases op <;>
      simp [run, preInc, postInc, preDec, postDec, addInt, addIndex, subInt, subIndex, change, hv', hv, bind, Except.bind]

example : (run true 5 (.subInt (-3))) = (8, .ok 8) ∧ (run true 5 .postDec) = (4, .ok 5) ∧
    (run true 2147483647 .preInc) = (2147483647, .error .throws) ∧ (run true 5 (.addIndex (-1234567))) = (5, .error .throws) := by
  decide +kernel

/-- After operations none of which throws, the index is the sum, and valid if there was any operation. -/
theorem index_history (ops : List Op) (ht : ∀ op ∈ ops, op.WellTyped) (x y : Int) (hx : Valid x) (h : runAll true x ops = .ok y) :
    Valid y ∧ y = x + (ops.map Op.delta).sum := by
  induction ops generalizing x with
  | nil => cases h; simpa using hx
  | cons op l ih =>
    obtain ⟨h₁, h₂, _⟩ := index_arithmetic x op (ht op List.mem_cons_self)
    rw [runAll] at h
    rcases hr : run true x op with ⟨z, e | v⟩
    · rw [hr] at h
      cases h
    · rw [hr] at h h₁ h₂
      have hz := (h₂ v rfl).2
      dsimp only at hz h
      subst hz
      obtain ⟨h₃, h₄⟩ := ih (fun o ho => ht o (List.mem_cons_of_mem _ ho)) _ (h₁.mp ⟨v, rfl⟩).2.2 h
      refine ⟨h₃, ?_⟩
      rw [h₄]
      simp
      omega

/-- An operation that succeeds with assertions does the same without them. -/
theorem index_without_assertions (x : Int) (op : Op) (v : Int) (h : (run true x op).2 = .ok v) : run false x op = run true x op := by
  have hv : ∀ y, assertValid false y = .ok () := fun y => by simp [assertValid]
  have ho : ∀ y d, assertNoOverflow false y d = .ok () := fun y d => by simp [assertNoOverflow]
  have step : ∀ (y : Int) (b b' : Except Err Int) (f g : Int → Except Err Int), (change y b f).2 = .ok v →
      (∀ z, b = .ok z → b' = .ok z) → (∀ z w, f z = .ok w → g z = .ok w) → change y b' g = change y b f := by
    intro y b b' f g h hb hf
    rcases b with e | z
    · cases h
    · rw [hb z rfl]
      unfold change at h ⊢
      dsimp only at h ⊢
      rw [h, hf z v h]
  have hbv : ∀ {α : Type} (y : Int) (k k' : Except Err α) (z : α), (∀ z, k = .ok z → k' = .ok z) →
      (assertValid true y >>= fun _ => k) = .ok z → (assertValid false y >>= fun _ => k') = .ok z := by
    intro α y k k' z hk h
    rw [hv]
    rcases assertValid_cases y with ⟨_, h'⟩ | ⟨_, h'⟩ <;> rw [h'] at h
    · exact hk z h
    · cases h
  have hbo : ∀ {α : Type} (y d d' : Int) (k k' : Except Err α) (z : α), (∀ z, k = .ok z → k' = .ok z) →
      (assertNoOverflow true y d >>= fun _ => k) = .ok z → (assertNoOverflow false y d' >>= fun _ => k') = .ok z := by
    intro α y d d' k k' z hk h
    rw [ho]
    rcases noOverflow_cases y d with ⟨_, h'⟩ | ⟨_, h'⟩ <;> rw [h'] at h
    · exact hk z h
    · cases h
  have hc : ∀ y z, construct true y = .ok z → construct false y = .ok z := fun y z h => hbv y _ _ z (fun _ h => h) h
  cases op with
  | preInc => exact step x _ _ _ _ h (fun z => hbv _ _ _ z fun z => hbo _ _ _ _ _ z fun _ h => h) (fun _ _ h => h)
  | postInc => exact step x _ _ _ _ h (fun z => hbv _ _ _ z fun z => hbo _ _ _ _ _ z fun _ h => h) (fun z w => hc _ w)
  | preDec => exact step x _ _ _ _ h (fun z => hbv _ _ _ z fun _ h => h) (fun z w => hbv _ _ _ w fun _ h => h)
  | postDec => exact step x _ _ _ _ h (fun z => hbv _ _ _ z fun _ h => h) (fun z w => hbv _ _ _ w fun w => hc _ w)
  | addInt i =>
    exact step x _ _ _ _ h (fun z => hbv _ _ _ z fun z => hbo _ _ _ _ _ z fun _ h => h) (fun z w => hbv _ _ _ w fun _ h => h)
  | addIndex o =>
    exact step x _ _ _ _ h (fun z => hbv _ _ _ z fun z => hbv _ _ _ z fun z => hbo _ _ _ _ _ z fun _ h => h)
      (fun z w => hbv _ _ _ w fun _ h => h)
  | subInt i =>
    refine step x _ _ _ _ h (fun z => hbv _ _ _ z fun z hz => ?_) (fun z w => hbv _ _ _ w fun _ h => h)
    rcases hn : negated true i with e | d
    · rw [hn] at hz
      cases hz
    · rw [hn] at hz
      exact hbo _ d 0 _ _ z (fun _ h => h) hz
  | subIndex o =>
    exact step x _ _ _ _ h (fun z => hbv _ _ _ z fun z => hbv _ _ _ z fun _ h => h) (fun z w => hbv _ _ _ w fun _ h => h)

/-- An operation that throws leaves the index as it was, or below zero. -/
theorem index_after_throw (x : Int) (op : Op) (e : Err) (h : (run true x op).2 = .error e) :
    (run true x op).1 = x ∨ ((run true x op).1 = x + op.delta ∧ x + op.delta < 0) := by
  have key : ∀ (b : Except Err Int) (f : Int → Except Err Int), (∀ z, b = .ok z → (z = x + op.delta ∧ (0 ≤ z → ∃ w, f z = .ok w))) →
      (change x b f).2 = .error e →
      (change x b f).1 = x ∨ ((change x b f).1 = x + op.delta ∧ x + op.delta < 0) := by
    intro b f hb h
    rcases b with e' | z
    · exact Or.inl rfl
    · obtain ⟨h₁, h₂⟩ := hb z rfl
      refine Or.inr ⟨h₁, ?_⟩
      by_contra hn
      obtain ⟨w, hw⟩ := h₂ (by omega)
      unfold change at h
      dsimp only at h
      rw [hw] at h
      cases h
  have hsig : ∀ y z, signed y = .ok z → z = y ∧ IsInt y := by
    intro y z h
    unfold signed at h
    split at h
    · cases h
      exact ⟨rfl, by unfold IsInt; omega⟩
    · cases h
  have hav : ∀ z, IsInt z → 0 ≤ z → ∃ w, (do assertValid true z; return z : Except Err Int) = .ok w := by
    intro z hz h0
    rcases assertValid_cases z with ⟨_, h'⟩ | ⟨h', _⟩
    · exact ⟨z, by rw [h']; rfl⟩
    · exact absurd ⟨h0, hz.2⟩ h'
  have hcon : ∀ z, Valid z → ∃ w, construct true z = .ok w := fun z hz => ⟨z, (index_made z).1 z |>.mpr ⟨hz, rfl⟩⟩
  have hb1 : ∀ {y : Int} {k : Except Err Int} {z : Int}, (assertValid true y >>= fun _ => k) = .ok z → Valid y ∧ k = .ok z := by
    intro y k z h
    rcases assertValid_cases y with ⟨hy, h'⟩ | ⟨_, h'⟩ <;> rw [h'] at h
    · exact ⟨hy, h⟩
    · cases h
  have hb2 : ∀ {y d : Int} {k : Except Err Int} {z : Int}, (assertNoOverflow true y d >>= fun _ => k) = .ok z → k = .ok z := by
    intro y d k z h
    rcases noOverflow_cases y d with ⟨hy, h'⟩ | ⟨_, h'⟩ <;> rw [h'] at h
    · exact h
    · cases h
  cases op with
  | preInc =>
    refine key _ _ (fun z hz => ?_) h
    obtain ⟨h₁, h₂⟩ := hsig _ _ (hb2 (hb1 hz).2)
    exact ⟨h₁, fun _ => ⟨z, rfl⟩⟩
  | postInc =>
    refine key _ _ (fun z hz => ?_) h
    obtain ⟨h₁, h₂⟩ := hsig _ _ (hb2 (hb1 hz).2)
    refine ⟨h₁, fun _ => hcon _ ?_⟩
    rw [h₁, show x + 1 - 1 = x by omega]
    exact (hb1 hz).1
  | preDec =>
    refine key _ _ (fun z hz => ?_) h
    obtain ⟨h₁, h₂⟩ := hsig _ _ (hb1 hz).2
    exact ⟨by rw [h₁]; simp [Op.delta]; omega, hav z (h₁ ▸ h₂)⟩
  | postDec =>
    refine key _ _ (fun z hz => ?_) h
    obtain ⟨h₁, h₂⟩ := hsig _ _ (hb1 hz).2
    refine ⟨by rw [h₁]; simp [Op.delta]; omega, fun h0 => ?_⟩
    obtain ⟨w, hw⟩ := hcon (z + 1) (by rw [h₁, show x - 1 + 1 = x by omega]; exact (hb1 hz).1)
    refine ⟨w, ?_⟩
    rcases assertValid_cases z with ⟨_, h'⟩ | ⟨h', _⟩
    · rw [h']
      exact hw
    · exact absurd ⟨h0, h₁ ▸ h₂.2⟩ h'
  | addInt i =>
    refine key _ _ (fun z hz => ?_) h
    obtain ⟨h₁, h₂⟩ := hsig _ _ (hb2 (hb1 hz).2)
    exact ⟨h₁, hav z (h₁ ▸ h₂)⟩
  | addIndex o =>
    refine key _ _ (fun z hz => ?_) h
    obtain ⟨h₁, h₂⟩ := hsig _ _ (hb2 (hb1 (hb1 hz).2).2)
    exact ⟨h₁, hav z (h₁ ▸ h₂)⟩
  | subInt i =>
    refine key _ _ (fun z hz => ?_) h
    have hz' := (hb1 hz).2
    rcases hn : negated true i with e | d
    · rw [hn] at hz'
      cases hz'
    · rw [hn] at hz'
      obtain ⟨h₁, h₂⟩ := hsig _ _ (hb2 (d := d) hz')
      exact ⟨by rw [h₁]; simp [Op.delta]; omega, hav z (h₁ ▸ h₂)⟩
  | subIndex o =>
    refine key _ _ (fun z hz => ?_) h
    obtain ⟨h₁, h₂⟩ := hsig _ _ (hb1 (hb1 hz).2).2
    exact ⟨by rw [h₁]; simp [Op.delta]; omega, hav z (h₁ ▸ h₂)⟩

/-- A decrement of the index 0 throws, but the index is then -1, and asking whether it is valid ends the program. -/
theorem index_spoilt_by_throw : run true 0 .preDec = (-1, .error .throws) ∧ isValid true (-1) = .error .aborts := by decide +kernel

/-- Subtracting the least `int` is undefined, with assertions and without. -/
theorem index_sub_least : (run true 0 (.subInt (-2 ^ 31))).2 = .error .ub ∧ (run false 0 (.subInt (-2 ^ 31))).2 = .error .ub := by
  decide +kernel

/-- `is_valid` tells apart valid indices and default or moved-from ones. -/
theorem index_is_valid (armed : Bool) (x : Int) :
    (Valid x → isValid armed x = .ok true) ∧ isValid armed defaultInvalid = .ok false ∧ ¬Valid defaultInvalid ∧
      ∀ y, moveTo y x = (x, defaultInvalid) := by
  refine ⟨fun h => ?_, ?_, ?_, fun _ => rfl⟩
  · unfold Valid at h
    unfold isValid
    rw [if_neg (by rintro ⟨_, h'⟩; exact h' (Or.inl h.1))]
    simp [h.1]
  · cases armed <;> decide +kernel
  · unfold Valid defaultInvalid
    omega

/-- An index that is moved to itself is lost. -/
theorem index_move_to_self : ∃ x, Valid x ∧ ¬Valid (moveToSelf x) :=
  ⟨3, by unfold Valid; omega, by unfold Valid moveToSelf defaultInvalid; omega⟩

private theorem holds_iff (r : Rel) (x y : Int) : r.holds x y = true ↔ r.Means x y := by
  cases r <;> simp [Rel.holds, Rel.Means]

/-- Comparing two indices says how their numbers compare, and throws if one of them is not valid. -/
theorem index_compare (r : Rel) (x y : Int) :
    (∀ b, compareIndex true r x y = .ok b ↔ Valid x ∧ Valid y ∧ (b = true ↔ r.Means x y)) ∧
      (compareIndex true r x y = .error .throws ↔ ¬(Valid x ∧ Valid y)) := by
  have hb : ∀ b : Bool, r.holds x y = b ↔ (b = true ↔ r.Means x y) := by
    intro b
    rw [← holds_iff]
    cases r.holds x y <;> cases b <;> simp
  unfold compareIndex
  rcases assertValid_cases x with ⟨h, h'⟩ | ⟨h, h'⟩ <;> rcases assertValid_cases y with ⟨g, g'⟩ | ⟨g, g'⟩ <;>
    simp [h, h', g, g', bind, Except.bind, pure, Except.pure, hb]

private theorem castMax_spec (w : Nat) (v : Int) (hv : v < 2 ^ w) : v ≤ castMax w ↔ v ≤ 2147483647 := by
  unfold castMax maxIndex
  by_cases hw : w ≤ 31
  · have h2 : (2 : Int) ^ 31 = 2 ^ w * 2 ^ (31 - w) := by
      rw [← Int.pow_add]
      congr 1
      omega
    have hpos : (0 : Int) < 2 ^ w := Int.pow_pos (by omega)
    have hmod : (2147483647 : Int) % 2 ^ w = 2 ^ w - 1 := by
      have e : (2147483647 : Int) = (2 ^ w - 1) + 2 ^ w * (2 ^ (31 - w) - 1) := by
        rw [Int.mul_sub, ← h2]
        omega
      rw [e, Int.add_mul_emod_self_left]
      exact Int.emod_eq_of_lt (by omega) (by omega)
    rw [hmod]
    have : (2 : Int) ^ w ≤ 2 ^ 31 := by
      rw [h2]
      have : (0 : Int) < 2 ^ (31 - w) := Int.pow_pos (by omega)
      have := Int.mul_le_mul_of_nonneg_left (show (1 : Int) ≤ 2 ^ (31 - w) by omega) (Int.le_of_lt hpos)
      omega
    omega
  · have h2 : (2 : Int) ^ w = 2 ^ 31 * 2 ^ (w - 31) := by
      rw [← Int.pow_add]
      congr 1
      omega
    have hpos : (0 : Int) < 2 ^ (w - 31) := Int.pow_pos (by omega)
    have hle : (2 : Int) ^ 31 ≤ 2 ^ w := by
      rw [h2]
      have := Int.mul_le_mul_of_nonneg_left (show (1 : Int) ≤ 2 ^ (w - 31) by omega) (show (0 : Int) ≤ 2 ^ 31 by omega)
      omega
    rw [Int.emod_eq_of_lt (by omega) (by omega)]

/-- Comparing an index with a value of an unsigned type of any width says how the numbers compare, also if the value is out of the range of
indices. -/
theorem index_compare_unsigned (w : Nat) (r : Rel) (x v : Int) (h0 : 0 ≤ v) (hv : v < 2 ^ w) :
    (∀ b, compareUnsigned true w r x v = .ok b ↔ Valid x ∧ (b = true ↔ r.Means x v)) ∧
      (compareUnsigned true w r x v = .error .throws ↔ ¬Valid x) := by
  have hc := castMax_spec w v hv
  unfold compareUnsigned
  rcases assertValid_cases x with ⟨h, h'⟩ | ⟨h, h'⟩
  · have hx := h
    unfold Valid at hx
    by_cases hle : v ≤ 2147483647
    · have hm : v.bmod 4294967296 = v := bmod_eq (by unfold IsInt; omega)
      have hcl := hc.mpr hle
      have hcn : ¬castMax w < v := by omega
      constructor
      · intro b
        cases r <;> cases b <;> simp [h, h', bind, Except.bind, pure, Except.pure, hm, hcl, hcn, Rel.Means]
      · simp [h, h', bind, Except.bind, pure, Except.pure]
    · have hcl : ¬v ≤ castMax w := fun h => hle (hc.mp h)
      have hcn : castMax w < v := by omega
      constructor
      · intro b
        cases r <;> cases b <;> simp [h, h', bind, Except.bind, pure, Except.pure, hcl, hcn, Rel.Means] <;> omega
      · simp [h, h', bind, Except.bind, pure, Except.pure]
  · simp [h, h', bind, Except.bind]

example : compareUnsigned true 8 .lt 300 255 = .ok false ∧ compareUnsigned true 64 .lt 300 18446744073709551615 = .ok true := by
  decide +kernel

/-- With the unsigned value on the left, `==` and `!=` are right, and the four others are right if the numbers differ. -/
theorem unsigned_compare_index_partial (w : Nat) (r : Rel) (x v : Int) (hx : Valid x) (h0 : 0 ≤ v) (hv : v < 2 ^ w)
    (hr : r = .eq ∨ r = .ne ∨ v ≠ x) : ∃ b, unsignedCompare true w r v x = .ok b ∧ (b = true ↔ r.Means v x) := by
  classical
  have key : ∀ r', (r'.Means x v ↔ r.Means v x) → compareUnsigned true w r' x v = unsignedCompare true w r v x →
      ∃ b, unsignedCompare true w r v x = .ok b ∧ (b = true ↔ r.Means v x) := by
    intro r' h h'
    rw [← h']
    refine ⟨decide (r'.Means x v), ((index_compare_unsigned w r' x v h0 hv).1 _).mpr ⟨hx, by simp⟩, by simp [h]⟩
  cases r with
  | eq => exact key .eq (by simp [Rel.Means, eq_comm]) rfl
  | ne => exact key .ne (by simp [Rel.Means, eq_comm]) rfl
  | lt => exact key .ge (by simp at hr; simp [Rel.Means]; omega) rfl
  | le => exact key .gt (by simp at hr; simp [Rel.Means]; omega) rfl
  | gt => exact key .le (by simp at hr; simp [Rel.Means]; omega) rfl
  | ge => exact key .lt (by simp at hr; simp [Rel.Means]; omega) rfl

/-- With the unsigned value on the left, `<`, `<=`, `>` and `>=` are wrong whenever the numbers are equal. -/
theorem unsigned_compare_index_wrong (w : Nat) (x : Int) (hx : Valid x) (hw : x < 2 ^ w) :
    unsignedCompare true w .lt x x = .ok true ∧ unsignedCompare true w .le x x = .ok false ∧
      unsignedCompare true w .gt x x = .ok true ∧ unsignedCompare true w .ge x x = .ok false := by
  have h : ∀ r b, (b = true ↔ r.Means x x) → compareUnsigned true w r x x = .ok b :=
    fun r b hb => ((index_compare_unsigned w r x x hx.1 hw).1 b).mpr ⟨hx, hb⟩
  exact ⟨h .ge true (by simp [Rel.Means]), h .gt false (by simp [Rel.Means]), h .le true (by simp [Rel.Means]),
    h .lt false (by simp [Rel.Means])⟩

/-- A number that is out of range is not refused without assertions: the index stands for another number. -/
theorem index_truncated : construct false (2 ^ 32 + 5) = .ok 5 := by decide +kernel

end Maliput.Props
