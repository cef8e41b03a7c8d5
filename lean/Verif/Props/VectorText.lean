import Verif.Lemmas.VectorText

set_option autoImplicit false

/-!
# C113: vectors as text
-/
namespace Maliput.Props

open VectorText VectorText.Spec

variable {R : Type}

/-- **C113.** The text of a vector is read back to the same vector, up to the rounding of its numbers to the digits
written. -/
theorem vector_text_round_trip {stod : List Char → Option R} {print : R → List Char} {r : R → R} (stops : Stops stod)
    (skips : Skips stod) (written : Written stod print r) (v : List R) (ne : v ≠ []) :
    fromStr stod v.length (toStr print v) = .ok (v.map r) := by
  obtain ⟨x, v, rfl⟩ := List.exists_cons_of_ne_nil ne
  have h := fromStr_spec stops (ps := print x :: v.map fun y => ' ' :: print y) (tail := []) (by simp)
    (by
      intro p hp
      rw [List.mem_cons, List.mem_map] at hp
      obtain rfl | ⟨y, -, rfl⟩ := hp
      · exact (written x).2
      · intro c hc
        rw [List.mem_cons] at hc
        obtain rfl | hc := hc
        · decide
        · exact (written y).2 c hc)
    (by simp)
  rw [List.length_cons, List.length_map] at h
  rw [toStr_eq, List.length_cons, h, List.mapM_cons,
    mapM_number (r := r) v fun y _ => (skips _).trans (written y).1, number, (written x).1]
  rfl

/-- **C113.** Any text in the documented format is read: numbers, each with whatever spaces its parser allows, between braces
and separated by commas; the vector is that of the numbers, in order, and the text is refused when one is not a number. Also
text after the closing brace is ignored. What texts of no such format do is not covered, see `vector_text_malformed`. -/
theorem vector_text_read_partial {stod : List Char → Option R} (stops : Stops stod) (pieces : List (List Char)) (tail : List Char)
    (ne : pieces ≠ []) (hp : ∀ p ∈ pieces, ∀ c ∈ p, c ∉ special) (ht : ∀ c ∈ tail, c ∉ special) :
    (∀ v : List R, pieces.map stod = v.map some →
      fromStr stod pieces.length ('{' :: body pieces ++ '}' :: tail) = .ok v) ∧
    ((∃ p ∈ pieces, stod p = none) →
      fromStr stod pieces.length ('{' :: body pieces ++ '}' :: tail) = .error .standard) := by
  rw [fromStr_spec stops ne hp ht]
  clear ne hp ht
  constructor
  · induction pieces with
    | nil => intro v h; cases v with
      | nil => rfl
      | cons => cases h
    | cons p ps ih =>
      intro v h
      cases v with
      | nil => cases h
      | cons x v =>
        rw [List.map_cons, List.map_cons, List.cons.injEq] at h
        rw [List.mapM_cons, number, h.1, ih v h.2]
        rfl
  · induction pieces with
    | nil => rintro ⟨p, hp, -⟩; cases hp
    | cons p ps ih =>
      rintro ⟨q, hq, hn⟩
      rw [List.mapM_cons]
      cases hp : stod p with
      | none => rw [number, hp]; rfl
      | some x =>
        have : q ∈ ps := by
          rw [List.mem_cons] at hq
          obtain rfl | hq := hq
          · rw [hp] at hn; cases hn
          · exact hq
        rw [ih ⟨q, this, hn⟩, number, hp]
        rfl

/-- **C113.** A text with another number of opening braces, closing braces or commas than the format has is refused with an
`assertion_error`. -/
theorem vector_text_refused (stod : List Char → Option R) (n : Nat) (text : List Char)
    (h : text.count '{' ≠ 1 ∨ text.count '}' ≠ 1 ∨ text.count ',' + 1 ≠ n) : fromStr stod n text = .error .assertion := by
  rw [fromStr, if_pos h]

/-- A parser of numbers: spaces, then digits, then anything. -/
def digitsOf (l : List Char) : Option Nat :=
  match (l.dropWhile (· == ' ')).takeWhile Char.isDigit with
  | [] => none
  | d :: ds => some (Nat.ofDigitChars 10 (d :: ds) 0)

theorem digitsOf_stops : Stops digitsOf := by
  intro p rest c hc hp
  clear hp
  have hs : (c == ' ') = false := by rcases hc with rfl | rfl <;> decide
  have hd : c.isDigit = false := by rcases hc with rfl | rfl <;> decide
  have : ((p ++ c :: rest).dropWhile (· == ' ')).takeWhile Char.isDigit = (p.dropWhile (· == ' ')).takeWhile Char.isDigit := by
    induction p with
    | nil => simp [hs, hd]
    | cons x p ih =>
      rw [List.cons_append, List.dropWhile_cons, List.dropWhile_cons]
      split
      · exact ih
      · rw [← List.cons_append]
        generalize x :: p = q
        induction q with
        | nil => simp [hd]
        | cons y q ihq => rw [List.cons_append, List.takeWhile_cons, List.takeWhile_cons, ihq]
  rw [digitsOf, digitsOf, this]

theorem digitsOf_skips : Skips digitsOf := fun _ => rfl

theorem digitsOf_written : Written digitsOf (Nat.toDigits 10) id := by
  intro n
  have hd : ∀ c ∈ Nat.toDigits 10 n, c.isDigit = true := fun c hc => Nat.isDigit_of_mem_toDigits (by decide) (by decide) hc
  constructor
  · have h : ((Nat.toDigits 10 n).dropWhile (· == ' ')).takeWhile Char.isDigit = Nat.toDigits 10 n := by
      have h1 : (Nat.toDigits 10 n).dropWhile (· == ' ') = Nat.toDigits 10 n := by
        cases h : Nat.toDigits 10 n with
        | nil => rfl
        | cons c l =>
          have hc := hd c (by rw [h]; simp)
          have : (c == ' ') = false := by
            rw [beq_eq_false_iff_ne]
            rintro rfl
            exact absurd hc (by decide)
          rw [List.dropWhile_cons, this]
          rfl
      rw [h1]
      clear h1
      revert hd
      generalize Nat.toDigits 10 n = l
      intro hd
      induction l with
      | nil => rfl
      | cons c l ih => rw [List.takeWhile_cons, hd c (by simp), if_pos rfl, ih fun x hx => hd x (by simp [hx])]
    rw [digitsOf, h]
    cases hn : Nat.toDigits 10 n with
    | nil => exact absurd hn Nat.toDigits_ne_nil
    | cons c l =>
      have := Nat.ofDigitChars_ten_toDigits (n := n)
      rw [hn] at this
      exact congrArg some this
  · intro c hc hs
    have := hd c hc
    revert this
    rcases List.mem_cons.mp hs with rfl | hs
    · decide
    rcases List.mem_cons.mp hs with rfl | hs
    · decide
    rcases List.mem_cons.mp hs with rfl | hs
    · decide
    · cases hs

/-- **C113, witness.** `FromStr` documents an `assertion_error` for texts which do not follow the format. Where the braces are
is not looked at, the first character is skipped whatever it is, and what is after a number is ignored: text with no number
between its braces is read as a vector, and letters instead of numbers give an exception of the standard library. -/
theorem vector_text_malformed :
    fromStr digitsOf 2 "x5,6{}".toList = .ok [5, 6] ∧
    fromStr digitsOf 2 "{7 apples, 8}".toList = .ok [7, 8] ∧
    fromStr digitsOf 2 "{a, b}".toList = .error .standard := by
  decide

example : fromStr digitsOf 3 (toStr (Nat.toDigits 10) [0, 31, 278]) = .ok [0, 31, 278] :=
  vector_text_round_trip digitsOf_stops digitsOf_skips digitsOf_written [0, 31, 278] (by simp)

example : fromStr digitsOf 3 "{12,  3 , 004}  ".toList = .ok [12, 3, 4] :=
  (vector_text_read_partial digitsOf_stops ["12".toList, "  3 ".toList, " 004".toList] "  ".toList (by simp)
    (by decide) (by decide)).1 [12, 3, 4] (by decide)

example : fromStr digitsOf 3 "{12, 3}".toList = .error .assertion := vector_text_refused _ _ _ (by decide)

end Maliput.Props
