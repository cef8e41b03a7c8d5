import Mathlib.Tactic.Common
import Verif.Model.PolynomialText
import Verif.Spec.PolynomialText

set_option autoImplicit false
set_option linter.unusedSectionVars false

namespace Maliput.PolyText

open Maliput.Poly Spec

variable {R : Type} [Field R] [DecidableEq R]

theorem span_append {p : Char → Bool} : ∀ (w rest : List Char), (∀ c ∈ w, p c = true) →
    (∀ c r, rest = c :: r → p c = false) → (w ++ rest).takeWhile p = w ∧ (w ++ rest).dropWhile p = rest
  | [], rest, _, hr => by
    cases rest with
    | nil => simp
    | cons c r => simp [hr c r rfl]
  | c :: w, rest, hw, hr => by
    obtain ⟨h1, h2⟩ := span_append w rest (fun d hd => hw d (List.mem_cons_of_mem _ hd)) hr
    have hc := hw c List.mem_cons_self
    simp [hc, h1, h2]

theorem word_of_digit {c : Char} (h : c.isDigit = true) : isWord c = true := by
  by_contra hn
  simp only [isWord, Bool.not_eq_true', Bool.not_eq_false, List.contains_iff_mem, List.mem_cons, List.not_mem_nil, or_false] at hn
  rcases hn with rfl | rfl | rfl | rfl | rfl | rfl <;> revert h <;> decide

theorem digits_toString (n : Nat) : (toString n).toList = Nat.toDigits 10 n := Nat.toList_repr

theorem digits_isDigit {n : Nat} {c : Char} (h : c ∈ (toString n).toList) : c.isDigit = true := by
  rw [digits_toString] at h
  exact Nat.isDigit_of_mem_toDigits (by decide) (by decide) h

theorem digits_ne_nil (n : Nat) : (toString n).toList ≠ [] := by
  rw [digits_toString]; exact Nat.toDigits_ne_nil

theorem nameChars_word : ∀ c ∈ nameChars, isWord c = true ∧ c.isDigit = false := by decide +kernel

theorem idDigits_mem {part : Nat} {c : Char} (h : c ∈ idDigits part) : c ∈ nameChars := by
  simp only [idDigits, List.mem_filterMap] at h
  obtain ⟨m, _, hm⟩ := h
  split at hm
  · cases hm
    rw [List.getD_eq_getElem?_getD]
    cases e : nameChars[part / m % nameBase - 1]? with
    | none => decide +kernel
    | some d => exact List.mem_of_getElem? e
  · cases hm

/-- A name is characters of names, at least one, and a number. -/
theorem name_split (v : Nat) : ∃ cs, cs ≠ [] ∧ (∀ c ∈ cs, c ∈ nameChars) ∧
    idToVariableName v = cs ++ (toString (v / 2 / maxNamePart + 1)).toList := by
  refine ⟨if idDigits ((v / 2) % maxNamePart) = [] then ['@'] else idDigits ((v / 2) % maxNamePart), ?_, ?_, rfl⟩
  · split
    · simp
    · assumption
  · intro c hc
    split at hc
    · simp at hc; subst hc; decide +kernel
    · exact idDigits_mem hc

theorem name_word (v : Nat) : ∀ c ∈ idToVariableName v, isWord c = true := by
  obtain ⟨cs, _, h, e⟩ := name_split v
  intro c hc
  rw [e, List.mem_append] at hc
  rcases hc with hc | hc
  · exact (nameChars_word c (h c hc)).1
  · exact word_of_digit (digits_isDigit hc)

theorem name_length (v : Nat) : 2 ≤ (idToVariableName v).length := by
  obtain ⟨cs, h, _, e⟩ := name_split v
  have h1 := List.length_pos_iff.2 h
  have h2 := List.length_pos_iff.2 (digits_ne_nil (v / 2 / maxNamePart + 1))
  rw [e, List.length_append]; omega

theorem name_ne_nil (v : Nat) : idToVariableName v ≠ [] := fun h => by
  have := name_length v; rw [h] at this; simp at this

/-- What may follow a power: nothing or a sign of a sum or product. -/
def Follows (signs rest : List Char) : Prop := ∀ c r, rest = c :: r → c ∈ signs

theorem readFactor_term (t : Term) (rest : List Char) (hr : Follows ['+', '-', '*'] rest) :
    readFactor (termText t ++ rest) = some ((idToVariableName t.var, t.power), rest) := by
  have hsign : ∀ c r, rest = c :: r → isWord c = false ∧ c.isDigit = false ∧ c ≠ '^' := by
    intro c r e
    have := hr c r e
    simp only [List.mem_cons, List.not_mem_nil, or_false] at this
    rcases this with rfl | rfl | rfl <;> decide
  unfold readFactor termText
  by_cases hp : t.power = 1
  · obtain ⟨h1, h2⟩ := span_append (p := isWord) (idToVariableName t.var) rest (name_word _) fun c r e => (hsign c r e).1
    simp only [hp, ne_eq, not_true_eq_false, if_false, List.append_nil, h1, h2, name_ne_nil]
    split
    · exact absurd rfl (hsign _ _ rfl).2.2
    · rfl
  · obtain ⟨h1, h2⟩ := span_append (p := isWord) (idToVariableName t.var) ('^' :: ((toString t.power).toList ++ rest))
      (name_word _) fun c r e => by cases e; decide
    obtain ⟨h3, h4⟩ := span_append (p := Char.isDigit) (toString t.power).toList rest (fun c hc => digits_isDigit hc)
      fun c r e => (hsign c r e).2.1
    simp only [hp, ne_eq, not_false_eq_true, if_true, List.append_assoc, List.cons_append, h1, h2, h3, h4, name_ne_nil,
      if_false, digits_ne_nil]
    rw [digits_toString, Nat.ofDigitChars_ten_toDigits]

/-- The names and powers of terms. -/
def factors (ts : List Term) : List Factor := ts.map fun t => (idToVariableName t.var, t.power)

theorem readFactors_terms : ∀ (n : Nat) (t : Term) (ts : List Term) (rest : List Char), ts.length < n →
    Follows ['+', '-'] rest → readFactors n (termText t ++ termsText true ts ++ rest) = some (factors (t :: ts), rest)
  | 0, _, _, _, h, _ => by omega
  | n + 1, t, [], rest, _, hr => by
    have hr' : Follows ['+', '-', '*'] rest := fun c r e => by
      have := hr c r e
      simp only [List.mem_cons, List.not_mem_nil, or_false] at this ⊢
      tauto
    simp only [termsText, List.append_nil, readFactors, readFactor_term t rest hr']
    split
    · rename_i h; cases h
    · rename_i f r h
      simp only [Option.some.injEq, Prod.mk.injEq] at h
      exact absurd (hr _ _ h.2) (by decide)
    · rename_i f r _ h
      simp only [Option.some.injEq, Prod.mk.injEq] at h
      obtain ⟨rfl, rfl⟩ := h
      rfl
  | n + 1, t, u :: ts, rest, h, hr => by
    have ih := readFactors_terms n u ts rest (by simp at h; omega) hr
    have e : termText t ++ termsText true (u :: ts) ++ rest =
        termText t ++ ('*' :: (termText u ++ termsText true ts ++ rest)) := by simp [termsText]
    rw [e, readFactors, readFactor_term t _ (fun c r e => by cases e; decide)]
    simp only [ih, Option.map_some]
    rfl

theorem termsText_false (t : Term) (ts : List Term) : termsText false (t :: ts) = termText t ++ termsText true ts := by
  simp [termsText]

theorem termsText_true (t : Term) (ts : List Term) :
    termsText true (t :: ts) = '*' :: (termText t ++ termsText true ts) := by simp [termsText]

theorem terms_length : ∀ (ts : List Term), ts.length ≤ (termsText true ts).length
  | [] => by simp
  | t :: ts => by
    have := terms_length ts
    simp only [termsText_true, List.length_cons, List.length_append]
    omega

theorem termText_length (t : Term) : 2 ≤ (termText t).length := by
  have := name_length t.var
  simp only [termText, List.length_append]; omega

theorem readFactors_all (t : Term) (ts : List Term) (rest : List Char) (hr : Follows ['+', '-'] rest) :
    readFactors (termText t ++ termsText true ts ++ rest).length (termText t ++ termsText true ts ++ rest) =
      some (factors (t :: ts), rest) := by
  refine readFactors_terms _ t ts rest ?_ hr
  have h1 := terms_length ts
  have h2 := termText_length t
  simp only [List.length_append]; omega

/-- A power begins with a character of a name. -/
theorem termText_head (t : Term) (l : List Char) : ∃ c r, termText t ++ l = c :: r ∧ isWord c = true := by
  cases h : idToVariableName t.var with
  | nil => exact absurd h (name_ne_nil _)
  | cons c r =>
    refine ⟨c, _, by rw [termText, h]; rfl, name_word t.var c (by rw [h]; simp)⟩

theorem readProduct_terms (rd : List Char → Option R) (t : Term) (ts : List Term) (rest : List Char)
    (hr : Follows ['+', '-'] rest) :
    readProduct rd (termText t ++ termsText true ts ++ rest) = some ((1, factors (t :: ts)), rest) := by
  have hf := readFactors_all t ts rest hr
  unfold readProduct
  split
  · rename_i r e
    obtain ⟨c, r', e', hc⟩ := termText_head t (termsText true ts ++ rest)
    rw [List.append_assoc, e'] at e
    cases e
    exact absurd hc (by decide)
  · rw [hf]; rfl

theorem readProduct_number (rd : List Char → Option R) (num : List Char) (hn : ')' ∉ num) (c : R) (hc : rd num = some c)
    (ts : List Term) (rest : List Char) (hr : Follows ['+', '-'] rest) :
    readProduct rd ('(' :: (num ++ ')' :: termsText true ts) ++ rest) = some ((c, factors ts), rest) := by
  obtain ⟨h1, h2⟩ := span_append (p := (· != ')')) num (')' :: (termsText true ts ++ rest))
    (fun d hd => by
      rw [bne_iff_ne]
      rintro rfl
      exact hn hd) fun d r e => by cases e; rfl
  have e : '(' :: (num ++ ')' :: termsText true ts) ++ rest = '(' :: (num ++ ')' :: (termsText true ts ++ rest)) := by simp
  rw [e, readProduct]
  simp only [h1, h2, hc, Option.bind_some]
  cases ts with
  | nil =>
    simp only [termsText, List.nil_append]
    unfold readAfter
    split
    · exact absurd (hr _ _ rfl) (by decide)
    · rfl
  | cons t ts =>
    rw [termsText_true, List.cons_append, readAfter, readFactors_all t ts rest hr]
    rfl

/-- The text of a monomial inside of a sum. -/
def signedText (write : R → List Char) (m : Monomial R) : List Char :=
  (if m.coefficient ≠ -1 then ['+'] else []) ++ monomialText write m

theorem monomialsText_eq (write : R → List Char) : ∀ (m : Monomial R) (ms : List (Monomial R)),
    monomialsText write (m :: ms) = monomialText write m ++ ms.flatMap (signedText write)
  | m, [] => by simp [monomialsText]
  | m, n :: ms => by
    rw [monomialsText, monomialsText_eq write n ms]
    simp [signedText]

/-- The text of a monomial cannot be read: a minus with nothing after it. -/
def Bare (m : Monomial R) : Prop := m.coefficient = -1 ∧ m.terms = []

/-- How a monomial is read: with names, and with the numbers as they are written. -/
def shown (round : R → R) (m : Monomial R) : R × List Factor := (round m.coefficient, factors m.terms)

theorem signedText_head (write : R → List Char) (m : Monomial R) (l : List Char) :
    ∃ c r, signedText write m ++ l = c :: r ∧ c ∈ ['+', '-'] := by
  by_cases h : m.coefficient = -1
  · exact ⟨'-', _, by simp [signedText, monomialText, h]; rfl, by decide⟩
  · exact ⟨'+', _, by simp [signedText, h]; rfl, by decide⟩

theorem signed_follows (write : R → List Char) (ms : List (Monomial R)) :
    Follows ['+', '-'] (ms.flatMap (signedText write)) := by
  intro c r e
  cases ms with
  | nil => simp at e
  | cons m ms =>
    obtain ⟨c', r', e', h'⟩ := signedText_head write m (ms.flatMap (signedText write))
    rw [List.flatMap_cons, e'] at e
    cases e
    exact h'

/-- A text that does not begin with a name or a number is not a product. -/
theorem readProduct_none (rd : List Char → Option R) (rest : List Char) (hr : Follows ['+', '-'] rest) :
    readProduct rd rest = none := by
  have hf : readFactors rest.length rest = none := by
    cases rest with
    | nil => rfl
    | cons c r =>
      have hc := hr c r rfl
      have hw : isWord c = false := by
        simp only [List.mem_cons, List.not_mem_nil, or_false] at hc
        rcases hc with rfl | rfl <;> decide
      simp [readFactors, readFactor, hw]
  unfold readProduct
  split
  · exact absurd (hr _ _ rfl) (by decide)
  · rw [hf]; rfl

variable {write : R → List Char} {rd : List Char → Option R} {round : R → R}

theorem readSum_signed (hn : ∀ c, ')' ∉ write c ∧ rd (write c) = some (round c)) (h1 : round 1 = 1)
    (h2 : round (-1) = -1) : ∀ (ms : List (Monomial R)) (n : Nat), ms.length ≤ n →
      ((∀ m ∈ ms, ¬Bare m) → readSum rd n (ms.flatMap (signedText write)) = some (ms.map (shown round))) ∧
      ((∃ m ∈ ms, Bare m) → readSum rd n (ms.flatMap (signedText write)) = none)
  | [], n, _ => by
    refine ⟨fun _ => ?_, fun ⟨m, hm, _⟩ => absurd hm (by simp)⟩
    cases n <;> rfl
  | m :: ms, 0, h => by simp at h
  | m :: ms, n + 1, h => by
    have ih := readSum_signed hn h1 h2 ms n (by simpa using h)
    have hf := signed_follows write ms
    rw [List.flatMap_cons]
    generalize ms.flatMap (signedText write) = rest at ih hf
    obtain ⟨c, ts⟩ := m
    by_cases hc : c = -1
    · subst hc
      cases ts with
      | nil =>
        have e : signedText write (⟨-1, []⟩ : Monomial R) ++ rest = '-' :: rest := by
          simp [signedText, monomialText, termsText]
        rw [e, readSum, readProduct_none rd rest hf]
        exact ⟨fun hb => absurd ⟨rfl, rfl⟩ (hb _ List.mem_cons_self), fun _ => rfl⟩
      | cons t ts =>
        have e : signedText write (⟨-1, t :: ts⟩ : Monomial R) ++ rest = '-' :: (termText t ++ termsText true ts ++ rest) := by
          simp [signedText, monomialText, termsText]
        rw [e, readSum, readProduct_terms rd t ts rest hf]
        have hb : ¬Bare (⟨-1, t :: ts⟩ : Monomial R) := fun hb => absurd hb.2 (by simp)
        refine ⟨fun h => ?_, fun ⟨m, hm, hm'⟩ => ?_⟩
        · simp [ih.1 fun m hm => h m (List.mem_cons_of_mem _ hm), shown, h2]
        · rcases List.mem_cons.1 hm with rfl | hm
          · exact absurd hm' hb
          · simp [ih.2 ⟨m, hm, hm'⟩]
    · have hb : ¬Bare (⟨c, ts⟩ : Monomial R) := fun hb => hc hb.1
      have key : ∃ t, signedText write (⟨c, ts⟩ : Monomial R) ++ rest = '+' :: t ∧
          readProduct rd t = some ((round c, factors ts), rest) := by
        by_cases h' : c ≠ 1 ∨ ts = []
        · refine ⟨'(' :: (write c ++ ')' :: termsText true ts) ++ rest, by simp [signedText, monomialText, hc, h'], ?_⟩
          exact readProduct_number rd _ (hn c).1 _ (hn c).2 ts rest hf
        · push Not at h'
          obtain ⟨rfl, h'⟩ := h'
          cases ts with
          | nil => exact absurd rfl h'
          | cons t ts =>
            refine ⟨termText t ++ termsText true ts ++ rest, by simp [signedText, monomialText, hc, termsText], ?_⟩
            rw [readProduct_terms rd t ts rest hf, h1]
      obtain ⟨t, e, ht⟩ := key
      rw [e, readSum, ht]
      refine ⟨fun h => ?_, fun ⟨m, hm, hm'⟩ => ?_⟩
      · simp [ih.1 fun m hm => h m (List.mem_cons_of_mem _ hm), shown]
      · rcases List.mem_cons.1 hm with rfl | hm
        · exact absurd hm' hb
        · simp [ih.2 ⟨m, hm, hm'⟩]

theorem signedText_length (m : Monomial R) : 1 ≤ (signedText write m).length := by
  obtain ⟨c, r, e, _⟩ := signedText_head write m []
  rw [List.append_nil] at e
  rw [e]; simp

theorem signed_length : ∀ (ms : List (Monomial R)), ms.length ≤ (ms.flatMap (signedText write)).length
  | [] => by simp
  | m :: ms => by
    have h1 := signed_length ms
    have h2 := signedText_length (write := write) m
    simp only [List.flatMap_cons, List.length_append, List.length_cons]; omega

theorem monomialText_ne_zero (m : Monomial R) (l : List Char) : monomialText write m ++ l ≠ ['0'] := by
  unfold monomialText
  split
  · simp
  · split
    · simp
    · rename_i h
      push Not at h
      cases hts : m.terms with
      | nil => exact absurd hts h.2
      | cons t ts =>
        rw [termsText_false]
        intro e
        have := congrArg List.length e
        have h2 := termText_length t
        simp only [List.length_append, List.length_cons, List.length_nil] at this
        omega

theorem monomialText_head (m : Monomial R) (l : List Char) :
    (monomialText write m ++ l).head? = some '-' ↔ m.coefficient = -1 := by
  unfold monomialText
  split
  · simp_all
  · rename_i h0
    split
    · simp_all
    · rename_i h
      push Not at h
      cases hts : m.terms with
      | nil => exact absurd hts h.2
      | cons t ts =>
        rw [termsText_false, List.append_assoc]
        obtain ⟨c, r, e, hc⟩ := termText_head t (termsText true ts ++ l)
        rw [e]
        simp only [List.head?_cons, Option.some.injEq, h0, iff_false]
        rintro rfl
        exact absurd hc (by decide)

theorem readFormula_text (hn : ∀ c, ')' ∉ write c ∧ rd (write c) = some (round c)) (h1 : round 1 = 1)
    (h2 : round (-1) = -1) (p : Polynomial R) :
    ((∀ m ∈ p.monomials, ¬Bare m) → readFormula rd (polynomialText write p) = some (p.monomials.map (shown round))) ∧
    ((∃ m ∈ p.monomials, Bare m) → readFormula rd (polynomialText write p) = none) := by
  cases hm : p.monomials with
  | nil => simp [polynomialText, readFormula, hm]
  | cons m ms =>
    have ht : polynomialText write p = monomialText write m ++ ms.flatMap (signedText write) := by
      rw [polynomialText, hm, if_neg (by simp), monomialsText_eq]
    have hs := signed_length (write := write) (m :: ms)
    have key := readSum_signed hn h1 h2 (m :: ms) (n := ((m :: ms).flatMap (signedText write)).length) hs
    have hr : readFormula rd (polynomialText write p) =
        readSum rd ((m :: ms).flatMap (signedText write)).length ((m :: ms).flatMap (signedText write)) := by
      rw [ht, readFormula, if_neg (monomialText_ne_zero m _)]
      by_cases hc : m.coefficient = -1
      · rw [if_pos ((monomialText_head m _).2 hc)]
        simp [hc, signedText]
      · rw [if_neg fun h => hc ((monomialText_head m _).1 h)]
        simp [hc, signedText]
    rw [hr]
    exact key

end Maliput.PolyText
