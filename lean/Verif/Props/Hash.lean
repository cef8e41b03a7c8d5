import Verif.Lemmas.Hash

set_option autoImplicit false

/-! Properties C38 and C61: hashing of values. -/
namespace Maliput.Props

open Maliput.Hash Maliput.Hash.Spec

variable {σ : Type}

/-- C38: `hash_append` feeds equal values alike to any algorithm; so equal values have equal hashes. -/
theorem hash_equal (h : Algorithm σ) (t : Ty) (x y : t.Val) (he : Equal t x y) :
    (∀ s, hashAppend h t s x = hashAppend h t s y) ∧ ∃ r, uhash h t x = .ok r ∧ uhash h t y = .ok r := by
  obtain ⟨h1, h2, h3⟩ := equal_blocks t x y he
  refine ⟨fun s => ?_, _, (hashAppend_eq h t x).1 h2 _, ?_⟩
  · rw [(hashAppend_eq h t x).1 h2, (hashAppend_eq h t y).1 h3, h1]
  · rw [h1]; exact (hashAppend_eq h t y).1 h3 _

/-- C38: two values of the same type that are appended to anything give the same bytes only if they are equal, and what
they are appended to is the same. -/
theorem hash_injective (t : Ty) (p q r : List UInt8) (x y : t.Val) (hx : Valid t x) (hy : Valid t y)
    (h : hashAppend recorder t p x = .ok r) (h' : hashAppend recorder t q y = .ok r) : p = q ∧ Equal t x y := by
  have nan : ∀ p (x : t.Val), hashAppend recorder t p x = .ok r → ¬ HasNaN t x := by
    intro p x hx hn
    rw [(hashAppend_eq recorder t x).2 hn] at hx
    cases hx
  have hnx := nan p x h
  have hny := nan q y h'
  rw [(hashAppend_eq recorder t x).1 hnx, foldl_recorder, Except.ok.injEq] at h
  rw [(hashAppend_eq recorder t y).1 hny, foldl_recorder, Except.ok.injEq] at h'
  exact blocks_inj t p q x y hx hy hnx hny (h.trans h'.symm)

/-- C38: the program is terminated exactly if a part of the value is not a number. -/
theorem hash_outcome (h : Algorithm σ) (t : Ty) (s : σ) (x : t.Val) :
    (HasNaN t x → hashAppend h t s x = .error .aborts) ∧ (¬ HasNaN t x → ∃ s', hashAppend h t s x = .ok s') :=
  ⟨fun hn => (hashAppend_eq h t x).2 hn s, fun hn => ⟨_, (hashAppend_eq h t x).1 hn s⟩⟩

/-- C38: the default hash is a function of the bytes alone: the 64-bit FNV-1a hash of them. -/
theorem hash_default (t : Ty) (x : t.Val) :
    uhash fnv1a t x = (hashAppend recorder t [] x).map fun bytes =>
      bytes.foldl (fun hash byte => (hash ^^^ byte.toBitVec.setWidth 64) * 1099511628211#64) 0xcbf29ce484222325#64 := by
  by_cases hn : HasNaN t x
  · rw [uhash, (hashAppend_eq fnv1a t x).2 hn, (hashAppend_eq recorder t x).2 hn]; rfl
  · rw [uhash, (hashAppend_eq fnv1a t x).1 hn, (hashAppend_eq recorder t x).1 hn, foldl_recorder, foldl_fnv]
    rfl

/-- C61: identifiers of the same length that differ in one character have different hashes. -/
theorem hash_one_character (p q : List UInt8) (a b : UInt8) (hab : a ≠ b) :
    hashId (p ++ a :: q) ≠ hashId (p ++ b :: q) := by
  intro h
  have e : ∀ l : List UInt8, hashId l = .ok ((bytesOf 8 l.length).foldl fnvByte (l.foldl fnvByte fnv1a.start)) := fun _ => rfl
  rw [e, e, Except.ok.injEq] at h
  simp only [List.foldl_append, List.length_append, List.length_cons, List.foldl_cons] at h
  have h1 := foldl_fnv_state _ _ _ h
  have h2 := foldl_fnv_state _ _ _ h1
  exact hab (fnvByte_byte _ _ _ h2)

/-- The identifiers of two different bulbs whose names concatenate to the same string. -/
def bulbNames : uniqueBulbId.Val × uniqueBulbId.Val := (((([97, 45, 98], [99]), [100])), ((([97], [98, 45, 99]), [100])))

example : Valid uniqueBulbId bulbNames.1 ∧ Valid uniqueBulbId bulbNames.2 ∧ ¬ Equal uniqueBulbId bulbNames.1 bulbNames.2 ∧
    (∃ r, hashAppend recorder uniqueBulbId [] bulbNames.1 = .ok r) ∧
    uhash fnv1a uniqueBulbId bulbNames.1 ≠ uhash fnv1a uniqueBulbId bulbNames.2 := by
  refine ⟨?_, ?_, ?_, ⟨_, rfl⟩, by decide +kernel⟩
  · simp [uniqueBulbId, bulbNames, Valid]
  · simp [uniqueBulbId, bulbNames, Valid]
  · rintro ⟨⟨h, -⟩, -⟩
    exact absurd (show ([97, 45, 98] : List UInt8) = [97] from h) (by decide)

/-- Two sets of optional numbers with positive and negative zeros. -/
def zeroSets : (Ty.range (.optional .float)).Val × (Ty.range (.optional .float)).Val :=
  (([some 0, none, some (2 ^ 63)] : List (Option Nat)), ([some (2 ^ 63), none, some 0] : List (Option Nat)))

/-- Positive and negative zero are equal and are hashed alike. -/
example : Equal _ zeroSets.1 zeroSets.2 ∧ uhash fnv1a _ zeroSets.1 = uhash fnv1a _ zeroSets.2 := by
  have he : Equal _ zeroSets.1 zeroSets.2 := by
    refine .cons (.some ?_) (.cons .none (.cons (.some ?_) .nil)) <;>
      exact ⟨by simp [NotANumber], by simp [NotANumber], .inr ⟨by simp [Hash.Spec.Zero], by simp [Hash.Spec.Zero]⟩⟩
  refine ⟨he, ?_⟩
  obtain ⟨-, r, h1, h2⟩ := hash_equal fnv1a _ _ _ he
  rw [h1, h2]

example : HasNaN .float (2047 * 2 ^ 52 + 1 : Nat) ∧ ¬ HasNaN .float (2047 * 2 ^ 52 : Nat) := by
  constructor
  · show NotANumber _; unfold NotANumber; decide
  · show ¬ NotANumber _; unfold NotANumber; decide

end Maliput.Props
