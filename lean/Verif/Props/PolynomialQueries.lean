import Verif.Lemmas.PolynomialQueries
import Verif.Props.PiecewiseOperations
import Verif.Props.Polynomial

set_option autoImplicit false
set_option linter.unusedSectionVars false

/-! C131: queries and comparisons of polynomials. -/
namespace Maliput.Props

open Maliput Poly Poly.Spec

section
variable {R : Type} [Field R] [DecidableEq R]

/-- The value of the specification is what `EvaluateMultivariate` gives. -/
theorem value_of_polynomial (p : Poly.Polynomial R) (x : Nat → R) :
    evaluateMultivariate p (fun v => some (x v)) = .ok (valueOf p x) := by
  rw [evaluateMultivariate_ok]
  exact ⟨fun _ _ => rfl, rfl⟩

/-- 6 x³ y z, x z and x² z². -/
def bigMonomial : Monomial ℚ := ⟨6, [⟨48, 3⟩, ⟨58, 1⟩, ⟨68, 1⟩]⟩
def smallMonomial : Monomial ℚ := ⟨2, [⟨68, 1⟩, ⟨48, 1⟩]⟩
def otherMonomial : Monomial ℚ := ⟨2, [⟨48, 2⟩, ⟨68, 2⟩]⟩

/-- C131. `Factor` gives the monomial whose product with the divisor is the monomial; it is zero exactly when the
divisor does not divide the monomial. The coefficients are not zero, no variable is listed twice, and the powers of
the divisor are positive. -/
theorem monomial_factor (m d : Monomial R) (hm : (m.terms.map Term.var).Nodup) (hd : (d.terms.map Term.var).Nodup)
    (hpos : ∀ t ∈ d.terms, 0 < t.power) (hmc : m.coefficient ≠ 0) (hdc : d.coefficient ≠ 0) :
    ((m.factor d).coefficient ≠ 0 ↔ Divides d.terms m.terms) ∧
    ((m.factor d).coefficient ≠ 0 → (∀ v, exponent (m.factor d).terms v + exponent d.terms v = exponent m.terms v) ∧
      ∀ x, monomialAt x (m.factor d) * monomialAt x d = monomialAt x m) := by
  rcases factor_cases hm hd hpos with ⟨h1, h2⟩ | ⟨h1, ts, h2, h3⟩
  · rw [h2]
    exact ⟨⟨fun h => absurd rfl h, fun h => absurd h h1⟩, fun h => absurd rfl h⟩
  · rw [h2]
    refine ⟨⟨fun _ => h1, fun _ => div_ne_zero hmc hdc⟩, fun _ => ⟨fun v => (h3 v).symm, fun x => ?_⟩⟩
    unfold monomialAt
    dsimp only
    rw [powers_eq_of_exponent x ts d.terms m.terms h3]
    field_simp

example : bigMonomial.factor smallMonomial = ⟨3, [⟨48, 2⟩, ⟨58, 1⟩]⟩ ∧ bigMonomial.factor otherMonomial = ⟨0, []⟩ ∧
    smallMonomial.factor bigMonomial = ⟨0, []⟩ := by decide +kernel

/-- C131, not true of the code: a divisor that lists a variable with the power zero, and so divides everything, does
not divide a monomial without the variable. -/
theorem factor_zero_power : Divides [⟨58, 0⟩] [⟨48, 1⟩] ∧
    (⟨1, [⟨48, 1⟩]⟩ : Monomial ℚ).factor ⟨1, [⟨58, 0⟩]⟩ = ⟨0, []⟩ := by
  refine ⟨fun v => ?_, by decide +kernel⟩
  rw [exponent_cons]
  simp [exponent]

/-- 3 + 2 x - 5 y and x y + 1. -/
def affinePoly : Poly.Polynomial ℚ := ⟨[⟨3, []⟩, ⟨2, [⟨48, 1⟩]⟩, ⟨-5, [⟨58, 1⟩]⟩], false⟩
def productPoly : Poly.Polynomial ℚ := ⟨[⟨1, [⟨48, 1⟩, ⟨58, 1⟩]⟩, ⟨1, []⟩], false⟩

theorem affinePoly_reduced : Reduced affinePoly := by
  refine ⟨by simp [affinePoly], by simp [affinePoly, PositivePowers], by simp [affinePoly], ?_⟩
  simp [affinePoly, SameExponents]

theorem productPoly_reduced : Reduced productPoly := by
  refine ⟨by simp [productPoly], by simp [productPoly, PositivePowers], by simp [productPoly], ?_⟩
  simp [productPoly, SameExponents]

/-- C131. `IsAffine` says whether the polynomial is an affine function of the values of its variables. -/
theorem is_affine_iff [CharZero R] (p : Poly.Polynomial R) (hp : Reduced p) :
    isAffine p = true ↔ Affine (valueOf p) :=
  ⟨fun h => valueAt_affine p.monomials ((isAffine_iff p).1 h), fun h => isAffine_of_powers hp.positive (affine_powers hp h)⟩

/-- C131. A polynomial that claims to be affine is affine, also if it is not reduced. -/
theorem is_affine_sound (p : Poly.Polynomial R) (h : isAffine p = true) : Affine (valueOf p) :=
  valueAt_affine p.monomials ((isAffine_iff p).1 h)

example : isAffine affinePoly = true ∧ isAffine productPoly = false := by decide +kernel

/-- C131. The set of variables has the variables on which the value depends. -/
theorem variables_iff [Infinite R] (p : Poly.Polynomial R) (hp : Reduced p) (v : Nat) :
    v ∈ getVariables p ↔ ∃ x y : Nat → R, (∀ w, w ≠ v → x w = y w) ∧ valueOf p x ≠ valueOf p y := by
  rw [mem_getVariables]
  constructor
  · rintro ⟨m, hm, t, ht, hv⟩
    by_contra hcon
    push Not at hcon
    let q : Poly.Polynomial R := ⟨p.monomials.filter fun m => !m.hasVariable v, p.isUnivariate⟩
    have hsub : ∀ n ∈ q.monomials, n ∈ p.monomials := fun n hn => (List.mem_filter.1 hn).1
    have hq : Reduced q := ⟨fun n hn => hp.plain n (hsub n hn), fun n hn => hp.positive n (hsub n hn),
      fun n hn => hp.canonical.1 n (hsub n hn), hp.canonical.2.sublist List.filter_sublist⟩
    have hval : ∀ x, valueOf p x = valueOf q x := by
      intro x
      rw [hcon x (fun w => if w = v then 0 else x w) fun w hw => by simp [hw]]
      have key : ∀ ms : List (Monomial R), (∀ m ∈ ms, ∀ t ∈ m.terms, 0 < t.power) →
          (ms.map (monomialAt fun w => if w = v then 0 else x w)).sum =
            ((ms.filter fun m => !m.hasVariable v).map (monomialAt x)).sum := by
        intro ms
        induction ms with
        | nil => simp
        | cons n ms ih =>
          intro hpos
          have ih := ih fun k hk => hpos k (List.mem_cons_of_mem _ hk)
          rw [List.map_cons, List.sum_cons, ih, List.filter_cons]
          cases hh : n.hasVariable v with
          | true =>
            have h0 : monomialAt (fun w => if w = v then 0 else x w) n = 0 := by
              unfold monomialAt
              rw [List.prod_eq_zero, mul_zero]
              obtain ⟨u, hu, huv⟩ := List.any_eq_true.1 hh
              simp only [beq_iff_eq] at huv
              refine List.mem_map.2 ⟨u, hu, ?_⟩
              dsimp only
              rw [if_pos huv, zero_pow]
              exact (hpos n (by simp) u hu).ne'
            simp [h0]
          | false =>
            have h0 : monomialAt (fun w => if w = v then 0 else x w) n = monomialAt x n := by
              unfold monomialAt
              congr 2
              refine List.map_congr_left fun u hu => ?_
              have : ¬u.var = v := by
                have := List.any_eq_false.1 hh u hu
                simpa using this
              dsimp only
              rw [if_neg this]
            simp [h0]
      exact key p.monomials hp.positive
    obtain ⟨n, hn, -, hperm⟩ := same_values hp hq hval m hm
    have h1 : n.hasVariable v = false := by simpa using (List.mem_filter.1 hn).2
    have h2 := List.any_eq_false.1 h1 t (hperm.symm.subset ht)
    simp [hv] at h2
  · rintro ⟨x, y, hxy, hne⟩
    by_contra hcon
    apply hne
    unfold valueOf
    congr 1
    refine List.map_congr_left fun m hm => ?_
    unfold monomialAt
    congr 2
    refine List.map_congr_left fun t ht => ?_
    rw [hxy t.var fun e => hcon ⟨m, hm, t, ht, e⟩]

/-- C131. The set of variables is in increasing order, each variable once, and has the variables of the terms. -/
theorem variables_sorted (p : Poly.Polynomial R) :
    (getVariables p).Pairwise (· < ·) ∧ ∀ v, v ∈ getVariables p ↔ Mentions p v :=
  ⟨getVariables_sorted p, mem_getVariables p⟩

example : getVariables (⟨[⟨1, [⟨58, 1⟩, ⟨48, 1⟩]⟩, ⟨1, [⟨48, 2⟩]⟩], false⟩ : Poly.Polynomial ℚ) = [48, 58] := by decide +kernel

/-- C131. `GetSimpleVariable` gives a variable exactly when the polynomial is a multiple of that variable. What is
missing: the documentation says that the coefficient is 1, which is false of the code (see below). -/
theorem simple_variable_partial [Infinite R] (p : Poly.Polynomial R) (hp : Reduced p) (v : Nat) (hv : 0 < v) :
    getSimpleVariable p = v ↔ ∃ c, c ≠ 0 ∧ ∀ x, valueOf p x = c * x v := by
  constructor
  · intro h
    unfold getSimpleVariable at h
    rcases p with ⟨_ | ⟨⟨c, _ | ⟨⟨w, k⟩, _ | ⟨u, ts⟩⟩⟩, _ | ⟨n, ms⟩⟩, uni⟩ <;> simp only at h <;> try omega
    split at h
    · omega
    · rename_i hk
      push Not at hk
      subst h; subst hk
      exact ⟨c, hp.canonical.1 ⟨c, [⟨w, 1⟩]⟩ (by simp), fun x => by simp [valueOf, monomialAt]⟩
  · rintro ⟨c, hc, h⟩
    let q : Poly.Polynomial R := ⟨[⟨c, [⟨v, 1⟩]⟩], true⟩
    have hq : Reduced q := ⟨by simp [q], by simp [q, PositivePowers], by simp [q, hc], by simp [q]⟩
    have hval : ∀ x, valueOf p x = valueOf q x := fun x => by rw [h x]; simp [valueOf, monomialAt, q]
    obtain ⟨m, hm, -, hp1⟩ := same_values hq hp (fun x => (hval x).symm) ⟨c, [⟨v, 1⟩]⟩ (by simp [q])
    have ht : m.terms = [⟨v, 1⟩] := List.perm_singleton.1 hp1
    have huniq : ∀ n ∈ p.monomials, n.terms = [⟨v, 1⟩] := by
      intro n hn
      obtain ⟨k, hk, -, hperm⟩ := same_values hp hq hval n hn
      have : k = ⟨c, [⟨v, 1⟩]⟩ := by simpa [q] using hk
      subst this
      exact List.perm_singleton.1 hperm.symm
    unfold getSimpleVariable
    rcases hms : p.monomials with _ | ⟨a, _ | ⟨b, ms⟩⟩
    · rw [hms] at hm; cases hm
    · dsimp only
      rw [huniq a (by rw [hms]; simp)]
      simp
    · exfalso
      have := hp.canonical.2
      rw [hms, List.pairwise_cons] at this
      apply this.1 b (by simp)
      unfold SameExponents
      rw [huniq a (by rw [hms]; simp), huniq b (by rw [hms]; simp)]

example : getSimpleVariable (Poly.ofVar (1 : ℚ) 48) = 48 ∧ getSimpleVariable productPoly = 0 := by decide +kernel

/-- C131, not true of the code: `GetSimpleVariable`, documented for a single term with coefficient 1, also accepts
other coefficients. -/
theorem simple_variable_coefficient : getSimpleVariable (Poly.ofVar (5 : ℚ) 48) = 48 := by decide +kernel

end

section
variable {R : Type} [Field R] [LinearOrder R]

/-- C131. Equal polynomials have equal values. -/
theorem equal_sound (p q : Poly.Polynomial R) (h : equal p q = true) (x : Nat → R) : valueOf p x = valueOf q x := by
  unfold valueOf
  exact (((equal_iff p q).1 h).map _).sum_eq

/-- C131. The order of the monomials does not matter, and equality is reflexive, symmetric and transitive. -/
theorem equal_equivalence (p q r : Poly.Polynomial R) :
    equal p p = true ∧ (equal p q = true → equal q p = true) ∧ (equal p q = true → equal q r = true → equal p r = true) ∧
      (p.monomials.Perm q.monomials → equal p q = true) := by
  simp only [equal_iff]
  exact ⟨.refl _, .symm, .trans, id⟩

/-- C131. Reduced polynomials, the monomials of which list the variables in the same order, are equal when they have
the same values. What is missing: polynomials the monomials of which list their variables in other orders, for which
the claim is false (see below). -/
theorem equal_iff_values_partial [Infinite R] (p q : Poly.Polynomial R) (hp : Reduced p) (hq : Reduced q)
    (op : Ordered p) (oq : Ordered q) : equal p q = true ↔ ∀ x, valueOf p x = valueOf q x := by
  refine ⟨equal_sound p q, fun h => ?_⟩
  have key : ∀ {p q : Poly.Polynomial R}, Reduced p → Reduced q → Ordered p → Ordered q →
      (∀ x, valueOf p x = valueOf q x) → ∀ m ∈ p.monomials, m ∈ q.monomials := by
    intro p q hp hq op oq h m hm
    obtain ⟨n, hn, hc, ht⟩ := same_values hp hq h m hm
    have h1 := op m hm
    have h2 := oq n hn
    rw [List.pairwise_map] at h1 h2
    have he : n.terms = m.terms := by
      refine ht.eq_of_pairwise ?_ h2 h1
      intro a b _ _ h1 h2
      omega
    have : n = m := by cases n; cases m; simp_all
    exact this ▸ hn
  have nodup : ∀ {p : Poly.Polynomial R}, Reduced p → p.monomials.Nodup := by
    intro p hp
    refine hp.canonical.2.imp ?_
    rintro m n hne rfl
    exact hne (List.Perm.refl _)
  rw [equal_iff]
  exact (List.perm_ext_iff_of_nodup (nodup hp) (nodup hq)).2 fun m =>
    ⟨key hp hq op oq h m, key hq hp oq op (fun x => (h x).symm) m⟩

example : Ordered affinePoly ∧ Ordered productPoly ∧ equal affinePoly productPoly = false ∧
    equal affinePoly ⟨affinePoly.monomials.reverse, true⟩ = true :=
  ⟨by simp [Ordered, affinePoly], by simp [Ordered, productPoly], by decide +kernel, by decide +kernel⟩

/-- C131, not true of the code: x y and y x, which have the same values, are neither equal nor almost equal. -/
theorem equal_order_of_variables :
    let xy := (Expr.mul (.var (1 : ℚ) 48) (.var 1 58)).build
    let yx := (Expr.mul (.var (1 : ℚ) 58) (.var 1 48)).build
    (∀ x, valueOf xy x = valueOf yx x) ∧ Reduced xy ∧ Reduced yx ∧ equal xy yx = false ∧
      coefficientsAlmostEqual xy yx (1/2) .absolute = false ∧ coefficientsAlmostEqual xy yx (1/2) .relative = false := by
  have h1 : (Expr.mul (.var (1 : ℚ) 48) (.var 1 58)).build = ⟨[⟨1, [⟨48, 1⟩, ⟨58, 1⟩]⟩], false⟩ := by decide +kernel
  have h2 : (Expr.mul (.var (1 : ℚ) 58) (.var 1 48)).build = ⟨[⟨1, [⟨58, 1⟩, ⟨48, 1⟩]⟩], false⟩ := by decide +kernel
  intro xy yx
  refine ⟨fun x => ?_, ?_, ?_, by decide +kernel, by decide +kernel, by decide +kernel⟩
  · show valueOf (Expr.build _) x = valueOf (Expr.build _) x
    rw [h1, h2]
    simp [valueOf, monomialAt, mul_comm]
  · show Reduced (Expr.build _)
    rw [h1]
    exact ⟨by simp, by simp [PositivePowers], by simp, by simp⟩
  · show Reduced (Expr.build _)
    rw [h2]
    exact ⟨by simp, by simp [PositivePowers], by simp, by simp⟩

variable [IsStrictOrderedRing R]

/-- 3 + 2 x - 5 y + x y / 8, close to the affine polynomial. -/
def nearPoly : Poly.Polynomial ℚ := ⟨[⟨-5, [⟨58, 1⟩]⟩, ⟨17/8, [⟨48, 1⟩]⟩, ⟨1/8, [⟨48, 1⟩, ⟨58, 1⟩]⟩, ⟨3, []⟩], false⟩

/-- C131. With an absolute tolerance, `CoefficientsAlmostEqual` says whether the coefficients of the same products of
powers differ by at most the tolerance, missing ones being zero; with a relative one, whether the products are the
same and the coefficients differ by at most the tolerance times each of them. No two monomials of a polynomial have
the same terms. -/
theorem almost_equal_iff (p q : Poly.Polynomial R) (hp : DistinctTerms p) (hq : DistinctTerms q) (tol : R) :
    (coefficientsAlmostEqual p q tol .absolute = true ↔ CloseAbsolute tol p q) ∧
    (coefficientsAlmostEqual p q tol .relative = true ↔ CloseRelative tol p q) :=
  ⟨close_absolute_iff hp hq tol fun a b => abs_sub_comm a b, close_relative_iff hp hq tol⟩

example : DistinctTerms affinePoly ∧ DistinctTerms nearPoly ∧ coefficientsAlmostEqual affinePoly nearPoly (1/8) .absolute = true ∧
    coefficientsAlmostEqual affinePoly nearPoly (1/9) .absolute = false ∧
    coefficientsAlmostEqual affinePoly nearPoly 10 .relative = false :=
  ⟨by simp [DistinctTerms, affinePoly], by simp [DistinctTerms, nearPoly], by decide +kernel, by decide +kernel, by decide +kernel⟩

/-- C131. The comparison does not depend on which polynomial is asked. -/
theorem almost_equal_symmetric (p q : Poly.Polynomial R) (hp : DistinctTerms p) (hq : DistinctTerms q) (tol : R)
    (kind : ToleranceType) : coefficientsAlmostEqual p q tol kind = coefficientsAlmostEqual q p tol kind := by
  rw [Bool.eq_iff_iff]
  cases kind with
  | absolute =>
    rw [(almost_equal_iff p q hp hq tol).1, (almost_equal_iff q p hq hp tol).1]
    constructor <;> exact fun h => ⟨fun m hm n hn e => by rw [abs_sub_comm]; exact h.both n hn m hm e.symm,
      fun m hm hno => h.right m hm fun n hn e => hno n hn e.symm, fun m hm hno => h.left m hm fun n hn e => hno n hn e.symm⟩
  | relative =>
    rw [(almost_equal_iff p q hp hq tol).2, (almost_equal_iff q p hq hp tol).2]
    constructor <;> exact fun h => ⟨fun m hm n hn e => by rw [abs_sub_comm]; exact (h.both n hn m hm e.symm).symm,
      fun m hm => (h.right m hm).imp fun n hn => ⟨hn.1, hn.2.symm⟩, fun m hm => (h.left m hm).imp fun n hn => ⟨hn.1, hn.2.symm⟩⟩

/-- C131. The values of polynomials that are almost equal with an absolute tolerance differ by at most the tolerance
times the sum of the absolute values of their products of powers. -/
theorem almost_equal_values (p q : Poly.Polynomial R) (hp : DistinctTerms p) (hq : DistinctTerms q) (tol : R) (htol : 0 ≤ tol)
    (h : coefficientsAlmostEqual p q tol .absolute = true) (x : Nat → R) :
    |valueOf p x - valueOf q x| ≤ tol * (sizeAt p x + sizeAt q x) :=
  have h := (almost_equal_iff p q hp hq tol).1.1 h
  values_close tol htol x p.monomials q.monomials hp hq ⟨h.both, h.left, h.right⟩

/-- C131. With the tolerance zero, reduced polynomials that list their variables in the same order are almost equal
when they have the same values. -/
theorem almost_equal_zero_partial (p q : Poly.Polynomial R) (hp : Reduced p) (hq : Reduced q) (op : Ordered p)
    (oq : Ordered q) : coefficientsAlmostEqual p q 0 .absolute = true ↔ ∀ x, valueOf p x = valueOf q x := by
  have dist : ∀ {p : Poly.Polynomial R}, Reduced p → DistinctTerms p := by
    intro p hp
    refine hp.canonical.2.imp ?_
    intro m n hne he
    apply hne
    unfold SameExponents
    rw [he]
  constructor
  · intro h x
    have := almost_equal_values p q (dist hp) (dist hq) 0 le_rfl h x
    rw [zero_mul] at this
    exact sub_eq_zero.1 (abs_eq_zero.1 (le_antisymm this (abs_nonneg _)))
  · intro h
    have hperm := (equal_iff p q).1 ((equal_iff_values_partial p q hp hq op oq).2 h)
    refine (almost_equal_iff p q (dist hp) (dist hq) 0).1.2 ⟨fun m hm n hn he => ?_, fun m hm hno => ?_, fun n hn hno => ?_⟩
    · have hm' := hperm.subset hm
      by_cases hmn : m = n
      · rw [hmn, sub_self, abs_zero]
      · have : Std.Symm fun m n : Monomial R => m.terms ≠ n.terms := ⟨fun _ _ h => h.symm⟩
        exact absurd he ((dist hq).forall hm' hn hmn)
    · exact absurd rfl (hno m (hperm.subset hm))
    · exact absurd rfl (hno n (hperm.symm.subset hn))

example : Reduced affinePoly ∧ Reduced productPoly := ⟨affinePoly_reduced, productPoly_reduced⟩

end

/-! Piecewise polynomials. -/
section
open Piecewise Piecewise.Spec
variable {R : Type} [Field R] [LinearOrder R] [IsStrictOrderedRing R]

theorem approxSegments_ok (p q : PP R) (tol : R) (kind : ToleranceType) : ∀ is : List Nat,
    (∀ i ∈ is, i < p.polynomials.length ∧ i < q.polynomials.length) →
    ∃ b, approxSegments p q tol kind is = .ok b ∧ (b = true ↔ ∀ i ∈ is, ∀ f g, p.polynomials[i]? = some f →
      q.polynomials[i]? = some g → coefficientsAlmostEqual f g tol kind = true)
  | [], _ => ⟨true, rfl, by simp⟩
  | i :: is, h => by
    obtain ⟨b, hb, ih⟩ := approxSegments_ok p q tol kind is fun j hj => h j (List.mem_cons_of_mem _ hj)
    obtain ⟨h1, h2⟩ := h i (by simp)
    have e1 : nth p.polynomials i = .ok p.polynomials[i] := by unfold nth; rw [List.getElem?_eq_getElem h1]
    have e2 : nth q.polynomials i = .ok q.polynomials[i] := by unfold nth; rw [List.getElem?_eq_getElem h2]
    have e3 : approxSegments p q tol kind (i :: is) = if coefficientsAlmostEqual p.polynomials[i] q.polynomials[i] tol kind
        then approxSegments p q tol kind is else .ok false := by
      rw [approxSegments, e1, e2]; rfl
    rw [e3]
    by_cases hc : coefficientsAlmostEqual p.polynomials[i] q.polynomials[i] tol kind = true
    · rw [if_pos hc]
      refine ⟨b, hb, ih.trans ⟨fun hh j hj f g hf hg => ?_, fun hh j hj => hh j (List.mem_cons_of_mem _ hj)⟩⟩
      rcases List.mem_cons.1 hj with rfl | hj
      · rw [List.getElem?_eq_getElem h1] at hf
        rw [List.getElem?_eq_getElem h2] at hg
        cases hf; cases hg; exact hc
      · exact hh j hj f g hf hg
    · rw [if_neg hc]
      refine ⟨false, rfl, ⟨fun hh => (Bool.false_ne_true hh).elim, fun hh => absurd (hh i (by simp) _ _ (List.getElem?_eq_getElem h1) (List.getElem?_eq_getElem h2)) hc⟩⟩

/-- C131. `isApprox` of trajectories with segments says whether they have as many breaks, the breaks differ by at most
the tolerance, and so do the polynomials of the same segments. -/
theorem trajectories_approx (p q : PP R) (hp : Valid p) (hq : Valid q) (tol : R) (kind : ToleranceType) :
    ∃ b, p.isApprox q tol kind = .ok b ∧ (b = true ↔ p.breaks.length = q.breaks.length ∧
      (∀ (i : Nat) (a c : R), p.breaks[i]? = some a → q.breaks[i]? = some c → |a - c| ≤ tol) ∧
      (∀ (i : Nat) (f g : Poly.Polynomial R), p.polynomials[i]? = some f → q.polynomials[i]? = some g →
        coefficientsAlmostEqual f g tol kind = true)) := by
  have n1 : p.polynomials ≠ [] := List.length_pos_iff.1 hp.segments
  have n2 : q.polynomials ≠ [] := List.length_pos_iff.1 hq.segments
  have e : p.isApprox q tol kind = if p.segmentTimesEqual q tol then approxSegments p q tol kind (List.range p.segments)
      else .ok false := by
    unfold PP.isApprox throwUnless
    rw [if_pos (by simpa using n1), if_pos (by simpa using n2)]; rfl
  rw [e]
  by_cases ht : p.segmentTimesEqual q tol = true
  · rw [if_pos ht]
    unfold PP.segmentTimesEqual at ht
    simp only [Bool.and_eq_true, beq_iff_eq, List.all_eq_true, decide_eq_true_eq, not_lt] at ht
    have hs : p.segments = p.polynomials.length := by unfold PP.segments; rw [hp.lengths]; rfl
    have hlen : p.polynomials.length = q.polynomials.length := by
      have := hp.lengths; have := hq.lengths; omega
    obtain ⟨b, hb, hh⟩ := approxSegments_ok p q tol kind (List.range p.segments) fun i hi => by
      rw [List.mem_range, hs] at hi; omega
    refine ⟨b, hb, hh.trans ⟨fun h => ⟨ht.1, fun i a c ha hc => ?_, fun i f g hf hg => ?_⟩, fun h i _ => h.2.2 i⟩⟩
    · have := ht.2 (a, c) (List.mem_iff_getElem?.2 ⟨i, by rw [List.getElem?_zip_eq_some]; exact ⟨ha, hc⟩⟩)
      simpa using this
    · refine h i ?_ f g hf hg
      rw [List.mem_range, hs]
      exact (List.getElem?_eq_some_iff.1 hf).1
  · rw [if_neg ht]
    refine ⟨false, rfl, ⟨fun h => (Bool.false_ne_true h).elim, fun h => absurd ?_ ht⟩⟩
    unfold PP.segmentTimesEqual
    simp only [Bool.and_eq_true, beq_iff_eq, List.all_eq_true, decide_eq_true_eq, not_lt]
    refine ⟨h.1, fun b hb => ?_⟩
    obtain ⟨i, hi⟩ := List.mem_iff_getElem?.1 hb
    rw [List.getElem?_zip_eq_some] at hi
    exact h.2.1 i b.1 b.2 hi.1 hi.2

/-- C131. Without segments `isApprox` throws. -/
theorem trajectories_approx_empty (p q : PP R) (h : p.polynomials = [] ∨ q.polynomials = []) (tol : R)
    (kind : ToleranceType) : p.isApprox q tol kind = .error .throws := by
  unfold PP.isApprox throwUnless
  by_cases h1 : p.polynomials = []
  · rw [if_neg (by simpa using h1)]; rfl
  · rw [if_pos (by simpa using h1), if_neg (by simpa using h.resolve_left h1)]; rfl

example : twoPieces.isApprox twoPieces 0 .relative = .ok true ∧
    twoPieces.isApprox (twoPieces.addOffset (1/2)) (1/2) .absolute = .ok true ∧
    twoPieces.isApprox (twoPieces.addOffset (1/2)) (1/3) .absolute = .ok false ∧
    twoPieces.isApprox (twoPieces.shiftRight 1) (1/2) .absolute = .ok false ∧
    twoPieces.isApprox Piecewise.empty 1 .absolute = .error .throws := by decide +kernel

/-- C131. Adding or subtracting an offset adds it to or subtracts it from the values, and the opposite of a trajectory
has the opposite values. -/
theorem offset_values (p : PP R) (hp : Valid p) (v : Nat) (hs : SameVariable v p) (c t x : R)
    (hx : p.evalDerivative t 0 = .ok x) :
    (p.addOffset c).evalDerivative t 0 = .ok (x + c) ∧ (p.subOffset c).evalDerivative t 0 = .ok (x - c) ∧
      p.negate.evalDerivative t 0 = .ok (-x) := by
  rw [hp.evalDerivative] at hx
  have hx := Except.ok.inj hx
  have key : ∀ (op : Poly.Polynomial R → Poly.Polynomial R) (f : R → R),
      (∀ a : Poly.Polynomial R, InOne v a → ((op a).isUnivariate = true ∧ Poly.Spec.InVariable v (op a)) ∧
        ∀ x : R, valueAt (fun _ => x) (op a).monomials = f (valueAt (fun _ => x) a.monomials)) →
      (⟨p.breaks, p.polynomials.map op⟩ : PP R).evalDerivative t 0 = .ok (f x) := by
    intro op f hop
    have hv := hp.of_polynomials (qs := p.polynomials.map op) (by simp) fun r hr => by
      obtain ⟨a, ha, rfl⟩ := List.mem_map.1 hr
      exact (hop a (hs a ha)).1.1
    rw [hv.evalDerivative]
    dsimp only
    have e : p.polynomials.map op = List.zipWith (fun a _ => op a) p.polynomials p.polynomials := by
      rw [List.zipWith_self]
    rw [e, evalPieces_zipWith (fun a _ => op a) (fun y _ => f y) _ _ _ _ hp.lengths hp.segments rfl fun a ha b hb y => ?_]
    · have : saturated (⟨p.breaks, List.zipWith (fun a _ => op a) p.polynomials p.polynomials⟩ : PP R) t = saturated p t := rfl
      rw [this, hx]
    · obtain ⟨⟨-, k2⟩, k3⟩ := hop a (hs a ha)
      rw [derivAt_zero_eq k2 (fun _ => y), k3, (hs a ha).value]
  have good : Good (Poly.const c).monomials := by intro m hm; simp [Poly.const] at hm; simp [hm]
  have val : ∀ y : R, valueAt (fun _ => y) (Poly.const c).monomials = c := by intro y; simp [Poly.const, valueAt, monomialAt]
  refine ⟨key (fun a => Poly.add a (Poly.const c)) (· + c) fun a ha => ⟨?_, fun y => ?_⟩,
    key (fun a => Poly.sub a (Poly.const c)) (· - c) fun a ha => ⟨?_, fun y => ?_⟩,
    key Poly.neg (fun y => -y) fun a ha => ⟨⟨ha.univariate, ?_⟩, fun y => ?_⟩⟩
  · refine makeUnique_keeps v _ (fun m hm => ?_) ha.univariate
    rcases List.mem_append.1 hm with hm | hm
    · exact ha.inVariable m hm
    · left; simp [Poly.const] at hm; simp [hm]
  · rw [add_value _ ha.good good, val]
  · refine makeUnique_keeps v _ (fun m hm => ?_) ha.univariate
    rcases List.mem_append.1 hm with hm | hm
    · exact ha.inVariable m hm
    · left; simp [Poly.const] at hm; simp [hm]
  · rw [sub_value _ ha.good good, val]
  · intro m hm
    obtain ⟨n, hn, rfl⟩ := List.mem_map.1 hm
    exact ha.inVariable n hn
  · unfold Poly.neg
    dsimp only
    rw [valueAt_map (fun _ => y) (fun m => ⟨-m.coefficient, m.terms⟩) (-1) (fun m => by unfold monomialAt; ring)]
    ring

example : (twoPieces.addOffset 3).evalDerivative 2 0 = .ok 9 ∧ (twoPieces.subOffset 3).evalDerivative 2 0 = .ok 3 ∧
    twoPieces.negate.evalDerivative 2 0 = .ok (-6) := by decide +kernel

end

end Maliput.Props
