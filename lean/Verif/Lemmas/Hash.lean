import Mathlib.Tactic.Linarith
import Verif.Spec.Hash

set_option autoImplicit false

/-! Lemmas about hashing. -/
namespace Maliput.Hash

open Spec

variable {σ : Type}

/-- The bits that represent a number. -/
def normal (x : Nat) : Nat := if isZero x then 0 else x

theorem normal_lt {x : Nat} (h : x < 2 ^ 64) : normal x < 256 ^ 8 := by
  unfold normal
  split
  · norm_num
  · have : (256 : Nat) ^ 8 = 2 ^ 64 := by norm_num
    omega

theorem normal_inj {x y : Nat} (h : normal x = normal y) : x = y ∨ isZero x = true ∧ isZero y = true := by
  unfold normal at h
  by_cases h3 : isZero x = true <;> by_cases h4 : isZero y = true
  · exact .inr ⟨h3, h4⟩
  · rw [if_pos h3, if_neg h4] at h
    exact absurd (by rw [← h]; rfl) h4
  · rw [if_neg h3, if_pos h4] at h
    exact absurd (by rw [h]; rfl) h3
  · rw [if_neg h3, if_neg h4] at h
    exact .inl h

theorem isNaN_iff (x : Nat) : isNaN x = true ↔ NotANumber x := by
  unfold isNaN NotANumber
  simp only [Bool.and_eq_true, beq_iff_eq, bne_iff_ne]
  omega

theorem isZero_iff (x : Nat) : isZero x = true ↔ Spec.Zero x := by
  unfold isZero Spec.Zero
  rw [beq_iff_eq]

theorem normal_zero {x y : Nat} (hx : isZero x = true) (hy : isZero y = true) : normal x = normal y := by
  rw [normal, normal, if_pos hx, if_pos hy]

theorem appendFloat_ok (h : Algorithm σ) (s : σ) (x : Nat) (hn : isNaN x = false) :
    appendFloat h s x = .ok (h.feed s (bytesOf 8 (normal x))) := by
  rw [appendFloat, if_neg (by simp [hn]), normal]
  split <;> rfl

/-- The blocks of memory a value is fed as. -/
def blocks : (t : Ty) → t.Val → List (List UInt8)
  | .int n, x => [bytesOf n x]
  | .float, x => [bytesOf 8 (normal x)]
  | .string, (x : List UInt8) => [x, bytesOf 8 x.length]
  | .pair a b, x => blocks a x.1 ++ blocks b x.2
  | .optional a, (x : Option a.Val) => (x.elim [] (blocks a)) ++ [bytesOf 1 (if x.isSome then 1 else 0)]
  | .range a, (x : List a.Val) => x.flatMap (blocks a) ++ [bytesOf 8 x.length]

theorem appendAll_ok {α : Type} (h : Algorithm σ) (f : σ → α → Except Err σ) (bl : α → List (List UInt8)) (xs : List α)
    (hf : ∀ x ∈ xs, ∀ s, f s x = .ok ((bl x).foldl h.feed s)) :
    ∀ s, appendAll f s xs = .ok ((xs.flatMap bl).foldl h.feed s) := by
  induction xs with
  | nil => intro s; rfl
  | cons x xs ih =>
    intro s
    rw [appendAll, hf x List.mem_cons_self s]
    simp only [bind, Except.bind]
    rw [ih (fun y hy => hf y (List.mem_cons_of_mem _ hy)), List.flatMap_cons, List.foldl_append]

theorem appendAll_error {α : Type} (h : Algorithm σ) (f : σ → α → Except Err σ) (bl : α → List (List UInt8))
    (bad : α → Prop) (xs : List α) (hf : ∀ x ∈ xs, ¬ bad x → ∀ s, f s x = .ok ((bl x).foldl h.feed s))
    (hb : ∀ x ∈ xs, bad x → ∀ s, f s x = .error .aborts) (hex : ∃ x ∈ xs, bad x) :
    ∀ s, appendAll f s xs = .error .aborts := by
  induction xs with
  | nil => obtain ⟨x, hx, -⟩ := hex; cases hx
  | cons x xs ih =>
    intro s
    rw [appendAll]
    by_cases hx : bad x
    · rw [hb x List.mem_cons_self hx s]; rfl
    · rw [hf x List.mem_cons_self hx s]
      simp only [bind, Except.bind]
      apply ih (fun y hy => hf y (List.mem_cons_of_mem _ hy)) (fun y hy => hb y (List.mem_cons_of_mem _ hy))
      obtain ⟨y, hy, hby⟩ := hex
      rcases List.mem_cons.1 hy with rfl | hy
      · exact absurd hby hx
      · exact ⟨y, hy, hby⟩

theorem hashAppend_eq (h : Algorithm σ) (t : Ty) : ∀ (x : t.Val),
    (¬ HasNaN t x → ∀ s, hashAppend h t s x = .ok ((blocks t x).foldl h.feed s)) ∧
    (HasNaN t x → ∀ s, hashAppend h t s x = .error .aborts) := by
  induction t with
  | int n => intro x; exact ⟨fun _ s => rfl, fun h => absurd h id⟩
  | float =>
    intro x
    constructor
    · intro hn s
      have : isNaN x = false := Bool.eq_false_iff.2 fun e => hn ((isNaN_iff x).1 e)
      exact appendFloat_ok h s x this
    · intro hn s
      have : isNaN x = true := (isNaN_iff x).2 hn
      simp [hashAppend, appendFloat, this]
  | string => intro x; exact ⟨fun _ s => rfl, fun h => absurd h id⟩
  | pair a b iha ihb =>
    intro x
    constructor
    · intro hn s
      simp only [HasNaN, not_or] at hn
      simp only [hashAppend, (iha x.1).1 hn.1, bind, Except.bind, (ihb x.2).1 hn.2, blocks, List.foldl_append]
    · intro hn s
      by_cases h1 : HasNaN a x.1
      · simp only [hashAppend, (iha x.1).2 h1, bind, Except.bind]
      · have h2 : HasNaN b x.2 := hn.resolve_left h1
        simp only [hashAppend, (iha x.1).1 h1, bind, Except.bind, (ihb x.2).2 h2]
  | optional a ih =>
    intro x
    rcases x with _ | v
    · refine ⟨fun _ s => rfl, fun h => ?_⟩
      obtain ⟨v, hv, -⟩ := h
      cases hv
    · constructor
      · intro hn s
        have : ¬ HasNaN a v := fun h => hn ⟨v, rfl, h⟩
        simp only [hashAppend, (ih v).1 this, bind, Except.bind, blocks, Option.elim, List.foldl_append]
        rfl
      · rintro ⟨w, hw, hn⟩ s
        cases hw
        simp only [hashAppend, (ih v).2 hn, bind, Except.bind]
  | range a ih =>
    intro x
    constructor
    · intro hn s
      have h1 := appendAll_ok h (fun s v => hashAppend h a s v) (blocks a) x
        (fun v hv s => (ih v).1 (fun h => hn ⟨v, hv, h⟩) s)
      simp only [hashAppend, h1, bind, Except.bind, blocks, List.foldl_append]
      rfl
    · intro hn s
      have h1 := appendAll_error h (fun s v => hashAppend h a s v) (blocks a) (HasNaN a) x
        (fun v _ hv s => (ih v).1 hv s) (fun v _ hv s => (ih v).2 hv s) hn
      simp only [hashAppend, h1, bind, Except.bind]

theorem foldl_recorder (l : List (List UInt8)) : ∀ s, l.foldl recorder.feed s = s ++ l.flatten := by
  induction l with
  | nil => simp
  | cons b l ih => intro s; rw [List.foldl_cons, ih]; simp [recorder]

theorem foldl_fnv (l : List (List UInt8)) : ∀ s, l.foldl fnv1a.feed s = l.flatten.foldl fnvByte s := by
  induction l with
  | nil => simp
  | cons b l ih => intro s; rw [List.foldl_cons, ih, List.flatten_cons, List.foldl_append]; rfl

theorem bytesOf_length (n : Nat) : ∀ x, (bytesOf n x).length = n := by
  induction n with
  | zero => intro x; rfl
  | succ n ih => intro x; simp [bytesOf, ih]

theorem bytesOf_inj (n : Nat) : ∀ x y, x < 256 ^ n → y < 256 ^ n → bytesOf n x = bytesOf n y → x = y := by
  induction n with
  | zero => intro x y hx hy _; simp at hx hy; omega
  | succ n ih =>
    intro x y hx hy h
    simp only [bytesOf, List.cons.injEq] at h
    have h1 : x % 256 = y % 256 := by
      have := congrArg UInt8.toNat h.1
      simpa using this
    have h2 : x / 256 = y / 256 := by
      apply ih _ _ _ _ h.2
      · rw [pow_succ] at hx; omega
      · rw [pow_succ] at hy; omega
    omega

/-- Appending a block of a fixed length at the end can be undone. -/
theorem append_bytes {p q : List UInt8} {n x y : Nat} (hx : x < 256 ^ n) (hy : y < 256 ^ n)
    (h : p ++ bytesOf n x = q ++ bytesOf n y) : p = q ∧ x = y := by
  have := List.append_inj' h (by rw [bytesOf_length, bytesOf_length])
  exact ⟨this.1, bytesOf_inj n x y hx hy this.2⟩

theorem string_inj (p q x y : List UInt8) (hx : x.length < 2 ^ 64) (hy : y.length < 2 ^ 64)
    (h : p ++ [x, bytesOf 8 x.length].flatten = q ++ [y, bytesOf 8 y.length].flatten) : p = q ∧ x = y := by
  simp only [List.flatten_cons, List.flatten_nil, List.append_nil, ← List.append_assoc] at h
  obtain ⟨h1, h2⟩ := append_bytes (n := 8) hx hy h
  exact List.append_inj' h1 h2

theorem ranges_inj {a : Ty}
    (ih : ∀ (p q : List UInt8) (x y : a.Val), Valid a x → Valid a y → ¬ HasNaN a x → ¬ HasNaN a y →
      p ++ (blocks a x).flatten = q ++ (blocks a y).flatten → p = q ∧ Equal a x y) :
    ∀ (x y : List a.Val), x.length = y.length → (∀ v ∈ x, Valid a v ∧ ¬ HasNaN a v) → (∀ v ∈ y, Valid a v ∧ ¬ HasNaN a v) →
    ∀ (p q : List UInt8), p ++ (x.flatMap (blocks a)).flatten = q ++ (y.flatMap (blocks a)).flatten →
      p = q ∧ List.Forall₂ (Equal a) x y := by
  intro x
  induction x with
  | nil =>
    intro y hl _ _ p q h
    have : y = [] := List.length_eq_zero_iff.1 hl.symm
    subst this
    exact ⟨by simpa using h, .nil⟩
  | cons v x ihx =>
    intro y hl hx hy p q h
    rcases y with _ | ⟨w, y⟩
    · simp at hl
    · simp only [List.flatMap_cons, List.flatten_append, ← List.append_assoc] at h
      obtain ⟨h1, h2⟩ := ihx y (by simpa using hl) (fun u hu => hx u (List.mem_cons_of_mem _ hu))
        (fun u hu => hy u (List.mem_cons_of_mem _ hu)) _ _ h
      obtain ⟨h3, h4⟩ := ih p q v w (hx v List.mem_cons_self).1 (hy w List.mem_cons_self).1 (hx v List.mem_cons_self).2
        (hy w List.mem_cons_self).2 h1
      exact ⟨h3, .cons h4 h2⟩

theorem blocks_inj (t : Ty) : ∀ (p q : List UInt8) (x y : t.Val), Valid t x → Valid t y → ¬ HasNaN t x → ¬ HasNaN t y →
    p ++ (blocks t x).flatten = q ++ (blocks t y).flatten → p = q ∧ Equal t x y := by
  induction t with
  | int n =>
    intro p q x y hx hy _ _ h
    simp only [blocks, List.flatten_cons, List.flatten_nil, List.append_nil] at h
    exact append_bytes hx hy h
  | float =>
    intro p q x y hx hy hnx hny h
    simp only [blocks, List.flatten_cons, List.flatten_nil, List.append_nil] at h
    obtain ⟨h1, h2⟩ := append_bytes (normal_lt hx) (normal_lt hy) h
    exact ⟨h1, hnx, hny, (normal_inj h2).imp id fun h => ⟨(isZero_iff x).1 h.1, (isZero_iff y).1 h.2⟩⟩
  | string =>
    intro p q x y hx hy _ _ h
    exact string_inj p q x y hx hy h
  | pair a b iha ihb =>
    intro p q x y hx hy hnx hny h
    simp only [blocks, List.flatten_append, ← List.append_assoc] at h
    simp only [HasNaN, not_or] at hnx hny
    obtain ⟨h1, h2⟩ := ihb _ _ _ _ hx.2 hy.2 hnx.2 hny.2 h
    obtain ⟨h3, h4⟩ := iha _ _ _ _ hx.1 hy.1 hnx.1 hny.1 h1
    exact ⟨h3, h4, h2⟩
  | optional a ih =>
    intro p q x y hx hy hnx hny h
    simp only [blocks, List.flatten_append, List.flatten_cons, List.flatten_nil, List.append_nil, ← List.append_assoc] at h
    obtain ⟨h1, h2⟩ := append_bytes (by split <;> norm_num) (by split <;> norm_num) h
    rcases x with _ | x <;> rcases y with _ | y
    · exact ⟨by simpa using h1, .none⟩
    · simp at h2
    · simp at h2
    · obtain ⟨h3, h4⟩ := ih p q x y (hx x rfl) (hy y rfl) (fun h => hnx ⟨x, rfl, h⟩) (fun h => hny ⟨y, rfl, h⟩) h1
      exact ⟨h3, .some h4⟩
  | range a ih =>
    intro p q x y hx hy hnx hny h
    simp only [blocks, List.flatten_append, List.flatten_cons, List.flatten_nil, List.append_nil, ← List.append_assoc] at h
    obtain ⟨h1, h2⟩ := append_bytes (n := 8) hx.1 hy.1 h
    exact ranges_inj ih x y h2 (fun v hv => ⟨hx.2 v hv, fun h => hnx ⟨v, hv, h⟩⟩)
      (fun v hv => ⟨hy.2 v hv, fun h => hny ⟨v, hv, h⟩⟩) p q h1

theorem equal_ranges {a : Ty} (ih : ∀ (x y : a.Val), Equal a x y → blocks a x = blocks a y ∧ ¬ HasNaN a x ∧ ¬ HasNaN a y)
    {x y : List a.Val} (h : List.Forall₂ (Equal a) x y) :
    x.flatMap (blocks a) ++ [bytesOf 8 x.length] = y.flatMap (blocks a) ++ [bytesOf 8 y.length] ∧
      (∀ v ∈ x, ¬ HasNaN a v) ∧ ∀ v ∈ y, ¬ HasNaN a v := by
  have key : x.flatMap (blocks a) = y.flatMap (blocks a) ∧ (∀ v ∈ x, ¬ HasNaN a v) ∧ ∀ v ∈ y, ¬ HasNaN a v := by
    induction h with
    | nil => simp
    | cons hv _ ih' =>
      obtain ⟨a1, a2, a3⟩ := ih _ _ hv
      obtain ⟨b1, b2, b3⟩ := ih'
      refine ⟨by rw [List.flatMap_cons, List.flatMap_cons, a1, b1], ?_, ?_⟩
      · rw [List.forall_mem_cons]; exact ⟨a2, b2⟩
      · rw [List.forall_mem_cons]; exact ⟨a3, b3⟩
  exact ⟨by rw [key.1, h.length_eq], key.2⟩

theorem equal_blocks (t : Ty) : ∀ (x y : t.Val), Equal t x y → blocks t x = blocks t y ∧ ¬ HasNaN t x ∧ ¬ HasNaN t y := by
  induction t with
  | int n => intro x y h; cases h; exact ⟨rfl, id, id⟩
  | float =>
    rintro x y ⟨h1, h2, h3⟩
    refine ⟨?_, by simp [HasNaN, h1], by simp [HasNaN, h2]⟩
    rcases h3 with rfl | ⟨h3, h4⟩
    · rfl
    · simp only [blocks, normal_zero ((isZero_iff x).2 h3) ((isZero_iff y).2 h4)]
  | string => intro x y h; cases h; exact ⟨rfl, id, id⟩
  | pair a b iha ihb =>
    rintro x y ⟨h1, h2⟩
    obtain ⟨a1, a2, a3⟩ := iha _ _ h1
    obtain ⟨b1, b2, b3⟩ := ihb _ _ h2
    exact ⟨by simp only [blocks, a1, b1], by simp [HasNaN, a2, b2], by simp [HasNaN, a3, b3]⟩
  | optional a ih =>
    intro x y h
    cases h with
    | none => exact ⟨rfl, (by rintro ⟨v, hv, -⟩; cases hv), (by rintro ⟨v, hv, -⟩; cases hv)⟩
    | some h =>
      obtain ⟨a1, a2, a3⟩ := ih _ _ h
      refine ⟨by simp only [blocks, Option.elim, a1]; rfl, ?_, ?_⟩
      · rintro ⟨v, hv, hn⟩; cases hv; exact a2 hn
      · rintro ⟨v, hv, hn⟩; cases hv; exact a3 hn
  | range a ih =>
    intro x y h
    have key := equal_ranges ih h
    refine ⟨key.1, ?_, ?_⟩
    · rintro ⟨v, hv, hn⟩; exact key.2.1 v hv hn
    · rintro ⟨v, hv, hn⟩; exact key.2.2 v hv hn

theorem fnv_prime_inj (x y : BitVec 64) (h : x * 1099511628211#64 = y * 1099511628211#64) : x = y := by
  have h1 := congrArg (· * 14886173955864302971#64) h
  simp only [BitVec.mul_assoc] at h1
  have hp : (1099511628211#64 * 14886173955864302971#64 : BitVec 64) = 1#64 := by decide
  rw [hp, BitVec.mul_one, BitVec.mul_one] at h1
  exact h1

theorem xor_right_inj (x y z : BitVec 64) (h : x ^^^ z = y ^^^ z) : x = y := by
  have := congrArg (· ^^^ z) h
  simpa [BitVec.xor_assoc] using this

theorem fnvByte_state (x y : BitVec 64) (b : UInt8) (h : fnvByte x b = fnvByte y b) : x = y :=
  xor_right_inj _ _ _ (fnv_prime_inj _ _ h)

theorem fnvByte_byte (x : BitVec 64) (a b : UInt8) (h : fnvByte x a = fnvByte x b) : a = b := by
  have h1 := fnv_prime_inj _ _ h
  rw [BitVec.xor_comm x, BitVec.xor_comm x] at h1
  have h2 := xor_right_inj _ _ _ h1
  have h3 := congrArg BitVec.toNat h2
  simp only [BitVec.toNat_setWidth] at h3
  have ha : a.toBitVec.toNat < 2 ^ 8 := a.toBitVec.isLt
  have hb : b.toBitVec.toNat < 2 ^ 8 := b.toBitVec.isLt
  have : a.toBitVec.toNat = b.toBitVec.toNat := by omega
  exact UInt8.toNat_inj.1 this

theorem foldl_fnv_state (l : List UInt8) : ∀ x y, l.foldl fnvByte x = l.foldl fnvByte y → x = y := by
  induction l with
  | nil => intro x y h; exact h
  | cons b l ih => intro x y h; exact fnvByte_state _ _ _ (ih _ _ h)

end Maliput.Hash
