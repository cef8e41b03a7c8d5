import Mathlib.Data.Rat.Encodable
import Verif.Lemmas.PolynomialText
import Verif.Props.Polynomial

set_option autoImplicit false
set_option linter.unusedSectionVars false

/-! C148: the text of a polynomial. -/
namespace Maliput.Props

open Maliput.Poly Maliput.PolyText Maliput.PolyText.Spec

section
variable {R : Type} [Field R] [DecidableEq R] {write : R → List Char} {readNumber : List Char → Option R} {round : R → R}

/-- C148. The text of a polynomial is a formula of its monomials, with the names of their variables, unless the
number -1 is one of them.  A stream that rounds the numbers it writes gives the formula with the rounded numbers.
Missing: polynomials with the monomial -1, for which it is false (`polynomial_text_readable`). -/
theorem polynomial_text_read_partial
    (hnum : ∀ c, ')' ∉ write c ∧ readNumber (write c) = some (round c)) (h1 : round 1 = 1) (hm1 : round (-1) = -1)
    (p : Poly.Polynomial R) (hp : ∀ m ∈ p.monomials, ¬(m.coefficient = -1 ∧ m.terms = [])) :
    readFormula readNumber (polynomialText write p) = some (p.monomials.map fun m =>
      (round m.coefficient, m.terms.map fun t => (idToVariableName t.var, t.power))) :=
  (readFormula_text hnum h1 hm1 p).1 hp

/-- C148. The text is a formula if and only if no monomial is the number -1: such a monomial is written as a minus
with nothing after it. -/
theorem polynomial_text_readable
    (hnum : ∀ c, ')' ∉ write c ∧ readNumber (write c) = some (round c)) (h1 : round 1 = 1) (hm1 : round (-1) = -1)
    (p : Poly.Polynomial R) : (∃ l, readFormula readNumber (polynomialText write p) = some l) ↔
      ¬∃ m ∈ p.monomials, m.coefficient = -1 ∧ m.terms = [] := by
  obtain ⟨ha, hb⟩ := readFormula_text hnum h1 hm1 p
  constructor
  · rintro ⟨l, hl⟩ h
    rw [hb h] at hl
    cases hl
  · intro h
    push Not at h
    exact ⟨_, ha fun m hm hb => h m hm hb.1 hb.2⟩

/-- C148. If numbers are written exactly, the formula has the values of the polynomial. -/
theorem polynomial_text_value_partial (hnum : ∀ c, ')' ∉ write c ∧ readNumber (write c) = some c)
    (p : Poly.Polynomial R) (l : List (R × List Factor)) (hl : readFormula readNumber (polynomialText write p) = some l)
    (y : List Char → R) :
    evaluateMultivariate p (fun v => some (y (idToVariableName v))) = .ok (value y l) := by
  have hp := (polynomial_text_readable (round := fun c => c) hnum rfl rfl p).1 ⟨l, hl⟩
  rw [polynomial_text_read_partial (round := fun c => c) hnum rfl rfl p fun m hm h => hp ⟨m, hm, h⟩] at hl
  cases hl
  rw [evaluateMultivariate_ok]
  refine ⟨fun v _ => rfl, ?_⟩
  simp only [value, valueAt, List.map_map, Function.comp_def]
  rfl

/-- A variable made by `VariableNameToId` for a name of up to four characters. -/
def NamedVariable (v : Nat) : Prop :=
  ∃ name m, isValidVariableName name = true ∧ name.length ≤ 4 ∧ 1 ≤ m ∧ m ≤ 1162 ∧ variableNameToId name m = .ok v

theorem namedVariable_inj {v w : Nat} (hv : NamedVariable v) (hw : NamedVariable w)
    (h : idToVariableName v = idToVariableName w) : v = w := by
  obtain ⟨a, m, va, la, m1, m2, ea⟩ := hv
  obtain ⟨b, n, vb, lb, n1, n2, eb⟩ := hw
  obtain ⟨_, ea', _, ta⟩ := variable_name_round_trip a va la m m1 m2
  obtain ⟨_, eb', _, tb⟩ := variable_name_round_trip b vb lb n n1 n2
  rw [ea] at ea'; cases ea'
  rw [eb] at eb'; cases eb'
  rw [ta, tb] at h
  have split : ∀ (x : List Char) (k : Nat), isValidVariableName x = true →
      (x ++ (toString k).toList).takeWhile (fun c => !c.isDigit) = x ∧
      (x ++ (toString k).toList).dropWhile (fun c => !c.isDigit) = (toString k).toList := by
    intro x k hx
    simp only [isValidVariableName, Bool.and_eq_true, List.all_eq_true, List.contains_iff_mem] at hx
    refine span_append x _ (fun c hc => by rw [(nameChars_word c (hx.2 c hc)).2]; rfl) fun c r e => ?_
    rw [digits_isDigit (n := k) (by rw [e]; simp)]; rfl
  obtain ⟨xa, ya⟩ := split a m va
  obtain ⟨xb, yb⟩ := split b n vb
  rw [h] at xa ya
  have e1 : a = b := xa.symm.trans xb
  have e2 : (toString m).toList = (toString n).toList := ya.symm.trans yb
  rw [digits_toString, digits_toString] at e2
  have e3 := congrArg (fun l => Nat.ofDigitChars 10 l 0) e2
  simp only [Nat.ofDigitChars_ten_toDigits] at e3
  subst e1 e3
  rw [ea] at eb
  exact Except.ok.inj eb

/-- C148. If numbers are written exactly, polynomials with the same text have the same monomials, unless the number
-1 is one of them. -/
theorem polynomial_text_determines_partial (hnum : ∀ c, ')' ∉ write c ∧ readNumber (write c) = some c)
    (p q : Poly.Polynomial R) (hp : ∀ m ∈ p.monomials, ¬(m.coefficient = -1 ∧ m.terms = []))
    (hvp : ∀ m ∈ p.monomials, ∀ t ∈ m.terms, NamedVariable t.var)
    (hvq : ∀ m ∈ q.monomials, ∀ t ∈ m.terms, NamedVariable t.var)
    (h : polynomialText write p = polynomialText write q) : p.monomials = q.monomials := by
  have hq := (polynomial_text_readable (round := fun c => c) hnum rfl rfl q).1
    (h ▸ ⟨_, polynomial_text_read_partial (round := fun c => c) hnum rfl rfl p hp⟩)
  have e := polynomial_text_read_partial (round := fun c => c) hnum rfl rfl p hp
  rw [h, polynomial_text_read_partial (round := fun c => c) hnum rfl rfl q fun m hm h => hq ⟨m, hm, h⟩] at e
  have e := Option.some.inj e
  have terms : ∀ s t : List Term, (∀ u ∈ s, NamedVariable u.var) → (∀ u ∈ t, NamedVariable u.var) →
      (s.map fun u => (idToVariableName u.var, u.power)) = (t.map fun u => (idToVariableName u.var, u.power)) → s = t := by
    intro s
    induction s with
    | nil => intro t _ _ h; cases t <;> simp_all
    | cons u s ih =>
      intro t hs ht h
      cases t with
      | nil => simp at h
      | cons w t =>
        simp only [List.map_cons, List.cons.injEq, Prod.mk.injEq] at h
        obtain ⟨⟨ha, hb⟩, hc⟩ := h
        have h0 := namedVariable_inj (hs u (by simp)) (ht w (by simp)) ha
        have h1 := ih t (fun x hx => hs x (by simp [hx])) (fun x hx => ht x (by simp [hx])) hc
        obtain ⟨uv, up⟩ := u
        obtain ⟨wv, wp⟩ := w
        simp only at h0 hb
        subst h0 hb h1
        rfl
  revert e hvp hvq
  generalize p.monomials = a
  generalize q.monomials = b
  clear hq hp h
  induction a generalizing b with
  | nil => intro _ _ e; cases b <;> simp_all
  | cons m a ih =>
    intro hvp hvq e
    cases b with
    | nil => simp at e
    | cons n b =>
      simp only [List.map_cons, List.cons.injEq, Prod.mk.injEq] at e
      obtain ⟨⟨ha, hb⟩, hc⟩ := e
      have h0 := terms n.terms m.terms (hvq n (by simp)) (hvp m (by simp)) hb
      have h1 := ih b (fun x hx => hvp x (by simp [hx])) (fun x hx => hvq x (by simp [hx])) hc
      obtain ⟨mc, mt⟩ := m
      obtain ⟨nc, nt⟩ := n
      simp only at h0 ha
      subst h0 ha h1
      rfl

end

/-- Writes the numerator of a number: exact for integers. -/
def writeInt (c : ℚ) : List Char := (if c.num < 0 then ['-'] else []) ++ Nat.toDigits 10 c.num.natAbs

/-- Reads an integer. -/
def readInt : List Char → Option ℚ
  | '-' :: t => some (-(Nat.ofDigitChars 10 t 0 : ℚ))
  | t => some (Nat.ofDigitChars 10 t 0 : ℚ)

/-- Numbers that are written as integers meet the hypotheses, with rounding. -/
theorem writeInt_ok (c : ℚ) : ')' ∉ writeInt c ∧ readInt (writeInt c) = some (c.num : ℚ) := by
  have hd : ∀ d ∈ Nat.toDigits 10 c.num.natAbs, d.isDigit = true :=
    fun d hd => Nat.isDigit_of_mem_toDigits (by decide) (by decide) hd
  constructor
  · intro h
    simp only [writeInt, List.mem_append] at h
    rcases h with h | h
    · split at h
      · simp at h
      · simp at h
    · exact absurd (hd _ h) (by decide)
  · unfold writeInt
    by_cases h : c.num < 0
    · rw [if_pos h]
      show some (-(Nat.ofDigitChars 10 (Nat.toDigits 10 c.num.natAbs) 0 : ℚ)) = _
      rw [Nat.ofDigitChars_ten_toDigits]
      have : (c.num : ℤ) = -(c.num.natAbs : ℤ) := by omega
      conv_rhs => rw [this]
      simp only [Int.cast_neg, Int.cast_natCast]
    · rw [if_neg h, List.nil_append]
      have e : readInt (Nat.toDigits 10 c.num.natAbs) = some (Nat.ofDigitChars 10 (Nat.toDigits 10 c.num.natAbs) 0 : ℚ) := by
        unfold readInt
        split
        · rename_i r e
          exact absurd (hd '-' (by rw [e]; simp)) (by decide)
        · rfl
      rw [e, Nat.ofDigitChars_ten_toDigits]
      have : (c.num : ℤ) = (c.num.natAbs : ℤ) := by omega
      conv_rhs => rw [this]
      simp only [Int.cast_natCast]

/-- A way to write fractions exactly. -/
theorem exact_writing : ∃ (write : ℚ → List Char) (readNumber : List Char → Option ℚ),
    ∀ c, ')' ∉ write c ∧ readNumber (write c) = some c := by
  refine ⟨fun c => Nat.toDigits 10 (Encodable.encode c), fun t => Encodable.decode (Nat.ofDigitChars 10 t 0), fun c => ⟨?_, ?_⟩⟩
  · intro h
    exact absurd (Nat.isDigit_of_mem_toDigits (b := 10) (by decide) (by decide) h) (by decide)
  · simp only [Nat.ofDigitChars_ten_toDigits, Encodable.encodek]

/-- 5 t1² - t1 x1 - 3 + x1. -/
def textPolynomial : Poly.Polynomial ℚ :=
  ⟨[⟨5, [⟨48, 2⟩]⟩, ⟨-1, [⟨48, 1⟩, ⟨56, 1⟩]⟩, ⟨-3, []⟩, ⟨1, [⟨56, 1⟩]⟩], false⟩

example : polynomialText writeInt textPolynomial = "(5)*t1^2-t1*x1+(-3)+x1".toList := by decide +kernel

example : readFormula readInt (polynomialText writeInt textPolynomial) =
    some [(5, [("t1".toList, 2)]), (-1, [("t1".toList, 1), ("x1".toList, 1)]), (-3, []), (1, [("x1".toList, 1)])] := by
  decide +kernel

example : (∀ m ∈ textPolynomial.monomials, ¬(m.coefficient = -1 ∧ m.terms = [])) ∧
    NamedVariable 48 ∧ NamedVariable 56 :=
  ⟨by decide +kernel, ⟨"t".toList, 1, by decide +kernel⟩, ⟨"x".toList, 1, by decide +kernel⟩⟩

/-- C148, not true of the code: the polynomial t - 1 is written as "t1-", and the number -1 as "-"; t² - 1 + t is
written as "t1^2-+t1". -/
theorem polynomial_minus_one_text :
    polynomialText writeInt (Poly.Spec.Expr.subScalar (.var (1 : ℚ) 48) 1).build = "t1-".toList ∧
    polynomialText writeInt (Poly.Spec.Expr.const (-1 : ℚ)).build = "-".toList ∧
    polynomialText writeInt (Poly.Spec.Expr.monomials [⟨(1 : ℚ), [⟨48, 2⟩]⟩, ⟨-1, []⟩, ⟨1, [⟨48, 1⟩]⟩]).build = "t1^2-+t1".toList ∧
    polynomialText writeInt (Poly.Spec.Expr.subScalar (.var (1 : ℚ) 48) 2).build = "t1+(-2)".toList := by
  decide +kernel

/-- C148: `IdToVariableName` gives names to ids that no name has, so polynomials in such variables are not determined
by their texts. -/
theorem polynomial_text_other_ids :
    polynomialText writeInt (Poly.ofVar (1 : ℚ) 48) = polynomialText writeInt (Poly.ofVar 1 49) ∧
    polynomialText writeInt (Poly.ofVar (1 : ℚ) 2) = polynomialText writeInt (Poly.ofVar 1 62) := by
  decide +kernel

end Maliput.Props
