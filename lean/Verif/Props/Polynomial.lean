import Mathlib.Algebra.Field.Rat
import Mathlib.Data.Real.Basic
import Mathlib.Analysis.Calculus.Deriv.Pow
import Mathlib.Analysis.Calculus.Deriv.Add
import Mathlib.Analysis.Calculus.Deriv.Mul
import Verif.Lemmas.PolynomialMore
import Verif.Lemmas.PolynomialNames

set_option autoImplicit false
set_option linter.unusedSectionVars false

/-! C92-C95: polynomials. -/
namespace Maliput.Props
open Poly Poly.Spec

variable {R : Type} [Field R] [DecidableEq R]

/-! C92: arithmetic. -/

/-- (x + 2 y)² - 3 x y, with x the variable 48 and y the variable 58. -/
def polyExpr : Expr ℚ :=
  .sub (.pow (.add (.var 1 48) (.var 2 58)) 2) (.monomials [⟨3, [⟨48, 1⟩, ⟨58, 1⟩]⟩])

/-- C92. A polynomial written with the operators evaluates to what the expression means, whenever the variables
of the expression have values. -/
theorem polynomial_meaning (e : Expr R) (he : e.Plain) (known : Nat → Prop) [DecidablePred known] (x : Nat → R)
    (hk : ∀ v, e.Mentions v → known v) : evaluateMultivariate e.build (given known x) = .ok (e.meaning x) := by
  rw [evaluateMultivariate_ok]
  refine ⟨fun v hv => by simp [given, hk v (mentions_build e he hv)], ?_⟩
  rw [← build_value x e he]
  have : ∀ m ∈ e.build.monomials, monomialAt x m = monomialAt (fun v => (given known x v).getD 0) m := by
    intro m hm
    unfold monomialAt
    congr 2
    refine List.map_congr_left fun t ht => ?_
    simp [given, hk t.var (mentions_build e he ⟨m, hm, t, ht, rfl⟩)]
  unfold valueAt
  rw [List.map_congr_left this]

example : polyExpr.Plain ∧ evaluateMultivariate polyExpr.build (given (fun v => v = 48 ∨ v = 58) fun v => v) = .ok 18544 := by
  refine ⟨?_, by decide +kernel⟩
  simp [polyExpr, Expr.Plain]

/-- C92. Evaluation fails exactly when a variable of the polynomial has no value, and then with an out of range
error. -/
theorem polynomial_evaluation_fails (p : Poly.Polynomial R) (vals : Nat → Option R) :
    (∃ e, evaluateMultivariate p vals = .error e) ↔ ∃ v, Mentions p v ∧ vals v = none := by
  constructor
  · rintro ⟨e, he⟩
    by_contra hcon
    push Not at hcon
    have := (evaluateMultivariate_ok vals p _).2 ⟨fun v hv => by
      have := hcon v hv
      cases h : vals v with
      | none => exact absurd h this
      | some y => rfl, rfl⟩
    rw [this] at he; cases he
  · rintro ⟨v, hv, hn⟩
    cases h : evaluateMultivariate p vals with
    | error e => exact ⟨e, rfl⟩
    | ok y =>
      have := ((evaluateMultivariate_ok vals p y).1 h).1 v hv
      rw [hn] at this; cases this

theorem polynomial_evaluation_error (p : Poly.Polynomial R) (vals : Nat → Option R) (e : Err)
    (h : evaluateMultivariate p vals = .error e) : e = .outOfRange := evaluateMultivariate_error vals p e h

example : evaluateMultivariate polyExpr.build (given (fun v => v = 48) fun v => v) = .error .outOfRange := by
  decide +kernel

/-- C92. The sums, differences and products of polynomials, and polynomials from monomials, have one monomial for
each product of powers, and none with a zero coefficient. -/
theorem polynomial_canonical (a b : Expr R) (ha : a.Plain) (hb : b.Plain) :
    Canonical (Expr.add a b).build ∧ Canonical (Expr.sub a b).build ∧ Canonical (Expr.mul a b).build ∧
      ∀ ms, (Expr.monomials ms).Plain → Canonical (Expr.monomials ms : Expr R).build :=
  ⟨makeUnique_canonical _ fun m hm => (List.mem_append.1 hm).elim (build_good a ha m) (build_good b hb m),
   makeUnique_canonical _ (good_sub (build_good a ha) (build_good b hb)),
   makeUnique_canonical _ (good_mul (build_good a ha)),
   fun _ h => makeUnique_canonical _ h⟩

example : polyExpr.build = ⟨[⟨1, [⟨48, 2⟩]⟩, ⟨1, [⟨48, 1⟩, ⟨58, 1⟩]⟩, ⟨4, [⟨58, 2⟩]⟩], false⟩ := by decide +kernel

/-- C92. `EvaluatePartial` replaces the variables that have a value by it, and keeps the others. -/
theorem polynomial_partial_evaluation (e : Expr R) (he : e.Plain) (known : Nat → Prop) [DecidablePred known]
    (x : Nat → R) :
    (∀ v, Mentions (evaluatePartial e.build (given known x)) v → ¬known v ∧ e.Mentions v) ∧
    (∀ vals : Nat → R, evaluateMultivariate (evaluatePartial e.build (given known x)) (fun v => some (vals v)) =
      .ok (e.meaning fun v => if known v then x v else vals v)) ∧
    Canonical (evaluatePartial e.build (given known x)) := by
  refine ⟨fun v hv => ?_, fun vals => ?_, makeUnique_canonical _ (partial_good _ (build_good e he))⟩
  · obtain ⟨h1, h2⟩ := mentions_partial _ (build_good e he) hv
    refine ⟨fun hk => by simp [given, hk] at h2, mentions_build e he h1⟩
  · rw [evaluateMultivariate_ok]
    refine ⟨fun v _ => rfl, ?_⟩
    rw [← build_value _ e he]
    unfold evaluatePartial ofMonomials
    rw [makeUnique_value _ _ (partial_good _ (build_good e he))]
    dsimp only
    rw [partial_value]
    congr 1
    funext v
    by_cases hk : known v <;> simp [given, hk]

example : evaluatePartial polyExpr.build (given (fun v => v = 48) fun _ => 2) =
    ⟨[⟨4, []⟩, ⟨2, [⟨58, 1⟩]⟩, ⟨4, [⟨58, 2⟩]⟩], true⟩ := by decide +kernel

/-- C92. A polynomial that claims to have one variable has one: its monomials are constants and multiples of powers
of the same variable. The ids of variables are positive. -/
theorem polynomial_univariate_sound (e : Expr R) (he : e.Plain) (hpos : ∀ v, e.Mentions v → 0 < v)
    (h : e.build.isUnivariate = true) : ∃ v, InVariable v e.build := build_flag e he hpos h

/-- C92. An expression that mentions one variable gives a polynomial that claims to have one variable. -/
theorem polynomial_univariate_complete (e : Expr R) (he : e.Plain) (v : Nat) (h : ∀ w, e.Mentions w → w = v) :
    e.build.isUnivariate = true := (build_keeps v e he h).1

example : (Expr.pow (.addScalar (.var (2 : ℚ) 48) 1) 3).build.isUnivariate = true ∧ polyExpr.build.isUnivariate = false := by
  decide +kernel

/-- C92, not true of the code: a polynomial given as one monomial that lists a variable twice in a row keeps both;
`EvaluateUnivariate` reads one of them only, and a sum takes the monomial for another one. -/
theorem polynomial_repeated_variable :
    let xx := ofTerms (1 : ℚ) [⟨48, 1⟩, ⟨48, 1⟩]
    let xy := ofTerms (1 : ℚ) [⟨48, 1⟩, ⟨58, 1⟩]
    evaluateMultivariate xx (fun _ => some 3) = .ok 9 ∧ evaluateUnivariate xx 3 0 = .ok 3 ∧
    evaluateMultivariate (Poly.add xy xx) (fun v => some (if v = 48 then 3 else 5)) = .ok 30 ∧
    evaluateMultivariate (Poly.add xx xy) (fun v => some (if v = 48 then 3 else 5)) = .ok 24 := by
  decide +kernel

/-- C92, not true of the code: the flag is not set again when a variable disappears, so x + y - y cannot be
evaluated as the polynomial in one variable it is. -/
theorem polynomial_flag_lost :
    let p := (Expr.sub (.add (.var (1 : ℚ) 48) (.var 1 58)) (.var 1 58)).build
    p.monomials = [⟨1, [⟨48, 1⟩]⟩] ∧ evaluateUnivariate p 3 0 = .error .throws := by
  decide +kernel

/-- C92: the variable with the id zero is not counted, so the theorem about the flag needs positive ids. -/
theorem polynomial_flag_zero_id :
    (Expr.add (.var (1 : ℚ) 48) (.var 1 0)).build.isUnivariate = true ∧
      ¬∃ v, InVariable v (Expr.add (.var (1 : ℚ) 48) (.var 1 0)).build := by
  refine ⟨by decide +kernel, ?_⟩
  rintro ⟨v, hv⟩
  have hb : (Expr.add (.var (1 : ℚ) 48) (.var 1 0)).build.monomials = [⟨1, [⟨48, 1⟩]⟩, ⟨1, [⟨0, 1⟩]⟩] := by decide +kernel
  have h1 := hv ⟨1, [⟨48, 1⟩]⟩ (by rw [hb]; simp)
  have h2 := hv ⟨1, [⟨0, 1⟩]⟩ (by rw [hb]; simp)
  simp at h1 h2
  omega

/-! C93: calculus. -/

/-- 5 + 2 t + 7 t³. -/
def cubicExpr : Expr ℚ := .monomials [⟨5, []⟩, ⟨2, [⟨48, 1⟩]⟩, ⟨7, [⟨48, 3⟩]⟩]

/-- C93. `EvaluateUnivariate` agrees with the meaning of an expression in one variable. -/
theorem univariate_value (e : Expr R) (he : e.Plain) (v : Nat) (h : ∀ w, e.Mentions w → w = v) (x : R) :
    evaluateUnivariate e.build x 0 = .ok (e.meaning fun _ => x) := by
  obtain ⟨h1, h2⟩ := build_keeps v e he h
  rw [evaluateUnivariate_ok _ _ _ h1, derivAt_zero_eq h2 (fun _ => x), build_value _ e he]

example : evaluateUnivariate cubicExpr.build 2 0 = .ok 65 := by decide +kernel

/-- C93. The value `EvaluateUnivariate` gives for the order n + 1 is the derivative of the function it gives for
the order n. -/
theorem univariate_derivative (p : Poly.Polynomial ℝ) (h : p.isUnivariate = true) (n : Nat) :
    ∃ f f' : ℝ → ℝ, (∀ x, evaluateUnivariate p x n = .ok (f x)) ∧ (∀ x, evaluateUnivariate p x (n + 1) = .ok (f' x)) ∧
      ∀ x, HasDerivAt f (f' x) x := by
  refine ⟨fun x => derivAt n x p.monomials, fun x => derivAt (n + 1) x p.monomials,
    fun x => evaluateUnivariate_ok p x n h, fun x => evaluateUnivariate_ok p x (n + 1) h, fun x => ?_⟩
  generalize p.monomials = ms
  induction ms with
  | nil => simpa [derivAt] using hasDerivAt_const x (0 : ℝ)
  | cons m ms ih =>
    simp only [derivAt_cons]
    refine HasDerivAt.add ?_ ih
    have := ((hasDerivAt_pow (m.firstPower - n) x).const_mul (m.coefficient * (m.firstPower.descFactorial n : ℝ)))
    rw [Nat.descFactorial_succ, Nat.sub_add_eq]
    refine this.congr_deriv ?_
    push_cast; ring

/-- C93. `Derivative` gives a polynomial whose value, and whose derivatives, are the derivatives of the polynomial. -/
theorem derivative_polynomial (p : Poly.Polynomial R) (v : Nat) (hu : p.isUnivariate = true) (hp : InVariable v p)
    (n : Nat) : ∃ q, derivative p n = .ok q ∧ ∀ x k, evaluateUnivariate q x k = evaluateUnivariate p x (n + k) := by
  unfold derivative
  rw [if_pos hu]
  refine ⟨_, rfl, fun x k => ?_⟩
  split
  · rename_i h; subst h; rw [Nat.zero_add]
  · rename_i h
    rw [evaluateUnivariate_ok _ _ _ rfl, evaluateUnivariate_ok _ _ _ hu, derivAt_derivative n k h x hp]

example : derivative cubicExpr.build 2 = .ok ⟨[⟨42, [⟨48, 1⟩]⟩], true⟩ := by decide +kernel

/-- C93. `Integral` gives a polynomial whose derivative is the polynomial and whose value at zero is the constant. -/
theorem integral_polynomial [CharZero R] (p q : Poly.Polynomial R) (v : Nat) (c : R) (hp : InVariable v p)
    (h : Poly.integral p c = .ok q) : (∃ d, derivative q 1 = .ok d ∧
      ∀ x, evaluateUnivariate d x 0 = evaluateUnivariate p x 0) ∧ evaluateUnivariate q 0 0 = .ok c := by
  obtain ⟨h1, ⟨w, hw⟩, h2, h3⟩ := integral_spec hp h
  have hu : p.isUnivariate = true := by
    by_contra hcon
    unfold Poly.integral at h
    rw [if_neg hcon] at h; cases h
  obtain ⟨d, hd, hd'⟩ := derivative_polynomial q w h1 hw 1
  refine ⟨⟨d, hd, fun x => ?_⟩, by rw [evaluateUnivariate_ok _ _ _ h1, h3]⟩
  rw [hd', evaluateUnivariate_ok _ _ _ h1, evaluateUnivariate_ok _ _ _ hu, h2]

example : Poly.integral cubicExpr.build 1 = .ok ⟨[⟨5, [⟨48, 1⟩]⟩, ⟨1, [⟨48, 2⟩]⟩, ⟨7/4, [⟨48, 4⟩]⟩, ⟨1, []⟩], true⟩ := by
  decide +kernel

/-- C93. `GetCoefficients` gives the coefficients of the powers of the variable, from the power zero to the degree. -/
theorem coefficients_polynomial (p : Poly.Polynomial R) (v : Nat) (hu : p.isUnivariate = true) (hp : InVariable v p)
    (hc : Canonical p) (hpos : PositivePowers p) : ∃ cs, getCoefficients p = .ok cs ∧ cs.length = getDegree p + 1 ∧
      ∀ x, evaluateUnivariate p x 0 = .ok (powerSeries x cs) := by
  obtain ⟨cs, h1, h2, h3⟩ := getCoefficients_spec hu hp hc hpos
  exact ⟨cs, h1, h2, fun x => by rw [h3, evaluateUnivariate_ok _ _ _ hu]⟩

example : getCoefficients cubicExpr.build = .ok [5, 2, 0, 7] := by decide +kernel

/-- C93. Coefficients and roots of a polynomial in more than one variable are refused. -/
theorem multivariate_no_coefficients (p : Poly.Polynomial R) (h : p.isUnivariate = false) :
    getCoefficients p = .error .throws ∧ roots p = .error .throws := by
  have hc : getCoefficients p = .error .throws := by unfold getCoefficients; rw [h]; rfl
  refine ⟨hc, ?_⟩
  unfold roots
  rw [hc]; rfl

/-- C93. The degree is the greatest one of the monomials, and zero if there are none; that of a monomial is the product of the powers of
its variables, and zero if it has none. -/
theorem degree_polynomial (p : Poly.Polynomial R) :
    (∀ m ∈ p.monomials, m.getDegree ≤ getDegree p) ∧
    (getDegree p = 0 ∨ ∃ m ∈ p.monomials, getDegree p = m.getDegree) ∧
    ∀ m : Poly.Monomial R, m.getDegree = if m.terms = [] then 0 else (m.terms.map (·.power)).prod := by
  refine ⟨fun m hm => getDegree_le p hm, ?_, ?_⟩
  · have key : ∀ (l : List (Poly.Monomial R)) (d : Nat),
        l.foldl (fun d m => if d < m.getDegree then m.getDegree else d) d = d ∨
        ∃ m ∈ l, l.foldl (fun d m => if d < m.getDegree then m.getDegree else d) d = m.getDegree := by
      intro l
      induction l with
      | nil => intro d; exact Or.inl rfl
      | cons a l ih =>
        intro d
        rw [List.foldl_cons]
        rcases ih (if d < a.getDegree then a.getDegree else d) with h | ⟨m, hm, h⟩
        · rw [h]
          by_cases hd : d < a.getDegree
          · rw [if_pos hd]; exact Or.inr ⟨a, by simp, rfl⟩
          · rw [if_neg hd]; exact Or.inl rfl
        · exact Or.inr ⟨m, by simp [hm], h⟩
    exact key p.monomials 0
  · intro m
    unfold Poly.Monomial.getDegree
    cases m with
    | mk c ts =>
      cases ts with
      | nil => rfl
      | cons t ts =>
        dsimp only
        rw [if_neg (by simp), List.map_cons, List.prod_cons]
        have key : ∀ (l : List Poly.Term) (d : Nat), l.foldl (fun d u => d * u.power) d = d * (l.map (·.power)).prod := by
          intro l
          induction l with
          | nil => intro d; simp
          | cons a l ih => intro d; rw [List.foldl_cons, ih, List.map_cons, List.prod_cons, Nat.mul_assoc]
        exact key ts t.power

/-- C93. That is not the degree of polynomials in more than one variable: the one of the product of two variables is 1. -/
theorem degree_of_product_wrong : getDegree (⟨[⟨1, [⟨1, 1⟩, ⟨2, 1⟩]⟩], false⟩ : Poly.Polynomial ℚ) = 1 := by decide +kernel

/-- C93. What `Roots` returns for a polynomial of degree one is a root of it. -/
theorem roots_polynomial (p : Poly.Polynomial R) (v : Nat) (hu : p.isUnivariate = true) (hp : InVariable v p)
    (hc : Canonical p) (hpos : PositivePowers p) (rs : List R) (h : roots p = .ok rs) :
    ∀ r ∈ rs, evaluateUnivariate p r 0 = .ok 0 := by
  obtain ⟨cs, h1, h2, h3⟩ := coefficients_polynomial p v hu hp hc hpos
  unfold roots at h
  rw [h1] at h
  replace h : rootsOf cs = .ok rs := h
  unfold rootsOf at h
  split at h
  · cases h; simp
  · rename_i c0 c1
    cases h
    intro r hr
    rw [List.mem_singleton.1 hr, h3]
    have hc1 : c1 ≠ 0 := by
      -- the monomial of degree one exists and its coefficient is not zero
      have hdeg : getDegree p = 1 := by simp at h2; omega
      obtain ⟨m, hm, hm1⟩ : ∃ m ∈ p.monomials, m.firstPower = 1 := by
        by_contra hcon
        push Not at hcon
        have hle : ∀ m ∈ p.monomials, m.getDegree = 0 := by
          intro m hm
          have a := getDegree_le p hm
          have b := hcon m hm
          rw [firstPower_eq_getDegree (hp m hm)] at b
          omega
        have : getDegree p = 0 := by
          unfold getDegree
          revert hle
          generalize p.monomials = l
          intro hle
          induction l with
          | nil => rfl
          | cons a l ih =>
            rw [List.foldl_cons, hle a (by simp)]
            exact ih fun m hm => hle m (by simp [hm])
        omega
      have hcs : getCoefficients p = .ok (p.monomials.foldl (fun cs m => cs.set m.firstPower m.coefficient)
          (List.replicate (getDegree p + 1) 0)) := by unfold getCoefficients; rw [if_pos hu]; rfl
      rw [h1] at hcs
      have hcs := Except.ok.inj hcs
      have keep : ∀ (l : List (Monomial R)) (cs : List R), 1 < cs.length →
          (l.Pairwise fun m n => m.firstPower ≠ n.firstPower) → (m ∈ l ∨ (∀ n ∈ l, n.firstPower ≠ 1) ∧ cs[1]? = some m.coefficient) →
          (l.foldl (fun cs m => cs.set m.firstPower m.coefficient) cs)[1]? = some m.coefficient := by
        intro l
        induction l with
        | nil => intro cs _ _ h; rcases h with h | h; · cases h
                 · exact h.2
        | cons a l ih =>
          intro cs hl hpw h
          obtain ⟨p1, p2⟩ := List.pairwise_cons.1 hpw
          rw [List.foldl_cons]
          refine ih _ (by simpa using hl) p2 ?_
          rcases h with h | ⟨h, h'⟩
          · rcases List.mem_cons.1 h with rfl | h
            · right
              refine ⟨fun n hn => by rw [← hm1]; exact (p1 n hn).symm, ?_⟩
              rw [hm1]; simp [hl]
            · exact .inl h
          · right
            refine ⟨fun n hn => h n (by simp [hn]), ?_⟩
            rw [List.getElem?_set_ne (h a (by simp))]; exact h'
      have := keep p.monomials (List.replicate (getDegree p + 1) 0) (by rw [List.length_replicate, hdeg]; omega) (distinct_powers hp hc hpos) (.inl hm)
      rw [← hcs] at this
      simp at this
      rw [this]; exact hc.1 m hm
    simp only [powerSeries]
    congr 1
    field_simp; ring
  · cases h

example : roots (⟨[⟨6, []⟩, ⟨2, [⟨48, 1⟩]⟩], true⟩ : Poly.Polynomial ℚ) = .ok [-3] := by decide +kernel

/-- C93, not true of the code: a constant other than the vacuous polynomial cannot be integrated. -/
theorem integral_of_constant (c k : R) : Poly.integral (const c) k = .error .throws := by
  simp [Poly.integral, const, integralMonomial, firstVar]

/-! C94: the names of variables. -/

/-- C94. A name of up to four characters and a number from 1 to 1162 have an id; the name of the id is the name
followed by the number. -/
theorem variable_name_round_trip (name : List Char) (hv : isValidVariableName name = true) (hl : name.length ≤ 4)
    (m : Nat) (h1 : 1 ≤ m) (h2 : m ≤ 1162) : ∃ id, variableNameToId name m = .ok id ∧ 0 < id ∧
      idToVariableName id = name ++ (toString m).toList := by
  obtain ⟨hp, hlt, hd⟩ := namePart_digits name hv hl
  refine ⟨2 * (namePart name + maxNamePart * (m - 1)), variableNameToId_ok hv (by omega) h1 h2, by omega, ?_⟩
  have e1 : 2 * (namePart name + maxNamePart * (m - 1)) / 2 % maxNamePart = namePart name := by
    simp only [maxNamePart] at hlt ⊢; omega
  have e2 : 2 * (namePart name + maxNamePart * (m - 1)) / 2 / maxNamePart + 1 = m := by
    simp only [maxNamePart] at hlt ⊢; omega
  unfold idToVariableName
  rw [e1, e2, hd]
  dsimp only
  rw [if_neg (by rintro rfl; simp [isValidVariableName] at hv)]

example : variableNameToId "zzzz".toList 1162 = .ok 2146262802 ∧
    idToVariableName 2146262802 = "zzzz1162".toList := by decide +kernel

/-- C94. Different names of up to four characters, or different numbers, have different ids. -/
theorem variable_name_injective_partial (a b : List Char) (ha : isValidVariableName a = true) (hla : a.length ≤ 4)
    (hb : isValidVariableName b = true) (hlb : b.length ≤ 4) (m n id : Nat) (h : variableNameToId a m = .ok id)
    (h' : variableNameToId b n = .ok id) : a = b ∧ m = n := by
  obtain ⟨-, hlt, hd⟩ := namePart_digits a ha hla
  obtain ⟨-, hlt', hd'⟩ := namePart_digits b hb hlb
  obtain ⟨e, h1⟩ := variableNameToId_eq h
  obtain ⟨e', h1'⟩ := variableNameToId_eq h'
  have hp : namePart a = namePart b ∧ m = n := by
    simp only [maxNamePart] at *; omega
  exact ⟨by rw [← hd, ← hd', hp.1], hp.2⟩

/-- C94, not true of the code: the part of the id for the name is computed in 32 bits and only then compared with
the greatest one, so names of eight characters are accepted, get the ids of short names and become the same
variable. -/
theorem variable_names_collide :
    variableNameToId "aelqwpka".toList 1 = .ok 48 ∧ variableNameToId "t".toList 1 = .ok 48 ∧
    idToVariableName 48 = "t1".toList ∧
    (Expr.sub (.var (1 : ℚ) 48) (.var 1 48)).build = Poly.zero := by decide +kernel

/-! C95: substitution. -/

/-- C95. `Substitute` puts a polynomial in the place of a variable that is alone in its monomials. What is missing:
monomials in which the variable stands beside others, for which the claim is false (see below). -/
theorem substitute_partial (a b : Expr R) (ha : a.Plain) (hb : b.Plain) (v : Nat)
    (h : ∀ m ∈ a.build.monomials, (∃ t ∈ m.terms, t.var = v) → ∃ k, m.terms = [⟨v, k⟩]) (x : Nat → R) :
    evaluateMultivariate (substitute a.build v b.build) (fun w => some (x w)) =
      .ok (a.meaning fun w => if w = v then b.meaning x else x w) := by
  rw [evaluateMultivariate_ok]
  refine ⟨fun _ _ => rfl, ?_⟩
  rw [← build_value _ a ha, ← build_value x b hb]
  refine ((substitute_spec x (build_good a ha) (build_good b hb) ?_).1).symm
  intro m hm hv
  simp only [Monomial.hasVariable, List.any_eq_true, beq_iff_eq] at hv
  exact h m hm hv

example : substitute cubicExpr.build 48 (Expr.addScalar (.var 1 58) 1).build =
    ⟨[⟨14, []⟩, ⟨23, [⟨58, 1⟩]⟩, ⟨7, [⟨58, 3⟩]⟩, ⟨21, [⟨58, 2⟩]⟩], true⟩ := by decide +kernel

/-- C95, not true of the code: with 2 for x, the polynomial x y becomes 2 + 2 y, since each partial product is
added to the result. -/
theorem substitute_beside_others :
    let xy := (Expr.monomials [⟨(1 : ℚ), [⟨48, 1⟩, ⟨58, 1⟩]⟩]).build
    substitute xy 48 (const 2) = ⟨[⟨2, []⟩, ⟨2, [⟨58, 1⟩]⟩], true⟩ ∧
    evaluateMultivariate (substitute xy 48 (const 2)) (fun _ => some 5) = .ok 12 ∧
    evaluateMultivariate (evaluatePartial xy (given (fun v => v = 48) fun _ => 2)) (fun _ => some 5) = .ok 10 := by
  decide +kernel

/-- C95, not true of the code: `Subs` renames a variable and leaves the polynomial as it was: the monomials y and y
are not collected, y y counts as two variables, and the coefficients are wrong. -/
theorem subs_not_collected :
    let p := (Expr.add (.var (1 : ℚ) 48) (.pow (.var 1 48) 2)).build
    let q := (Expr.add (.var (1 : ℚ) 48) (.var 1 58)).build
    Poly.subs p 48 58 = ⟨[⟨1, [⟨58, 1⟩]⟩, ⟨1, [⟨58, 2⟩]⟩], true⟩ ∧
    (Poly.subs q 48 58).monomials = [⟨1, [⟨58, 1⟩]⟩, ⟨1, [⟨58, 1⟩]⟩] ∧
    evaluateUnivariate (Poly.subs q 48 58) 3 0 = .error .throws := by
  decide +kernel

/-- C95. The value of a polynomial after `Subs` is its value with the value of the replacement for the variable. -/
theorem subs_value (e : Expr R) (he : e.Plain) (v w : Nat) (x : Nat → R) :
    evaluateMultivariate (Poly.subs e.build v w) (fun u => some (x u)) =
      .ok (e.meaning fun u => if u = v then x w else x u) := by
  rw [evaluateMultivariate_ok]
  refine ⟨fun _ _ => rfl, ?_⟩
  rw [← build_value _ e he]
  unfold valueAt Poly.subs
  simp only [List.map_map]
  congr 1
  refine List.map_congr_left fun m _ => ?_
  simp only [Function.comp, monomialAt, List.map_map, Option.getD_some]
  congr 2
  refine List.map_congr_left fun t _ => ?_
  simp only [Function.comp]
  by_cases h : t.var = v <;> simp [h]

end Maliput.Props
