import Verif.Lemmas.PiecewisePolynomial
import Mathlib.Tactic.FieldSimp
import Mathlib.Tactic.Linarith
import Mathlib.Tactic.NormNum
import Mathlib.Tactic.Positivity

set_option autoImplicit false
set_option linter.unusedSectionVars false

/-! Lemmas about the construction of piecewise polynomials from samples. -/
namespace Maliput.Piecewise

open Maliput Poly Spec

variable {R : Type} [Field R] [LinearOrder R] [IsStrictOrderedRing R]

theorem epsilonTime_pos : (0 : R) < epsilonTime := by unfold epsilonTime; positivity

/-- A function of consecutive elements. -/
def consecutive {α β : Type} (f : α → α → β) : List α → List β
  | a :: b :: rest => f a b :: consecutive f (b :: rest)
  | _ => []

theorem consecutive_length {α β : Type} (f : α → α → β) : ∀ l : List α, (consecutive f l).length = l.length - 1
  | [] => rfl
  | [_] => rfl
  | _ :: b :: rest => by
    have := consecutive_length f (b :: rest)
    simp only [consecutive, List.length_cons] at this ⊢; omega

theorem consecutive_getElem {α β : Type} (f : α → α → β) : ∀ (l : List α) (i : Nat) (h : i + 1 < l.length),
    (consecutive f l)[i]'(by rw [consecutive_length]; omega) = f (l[i]'(by omega)) l[i + 1]
  | _ :: b :: rest, 0, h => rfl
  | _ :: b :: rest, i + 1, h => by
    have := consecutive_getElem f (b :: rest) i (by simp at h ⊢; omega)
    simpa [consecutive] using this
  | [_], _, h => by simp at h
  | [], _, h => by simp at h

theorem consecutive_mem {α β : Type} (f : α → α → β) {x : β} : ∀ {l : List α}, x ∈ consecutive f l → ∃ a b, x = f a b
  | a :: b :: rest, h => by
    rcases List.mem_cons.1 h with rfl | h
    · exact ⟨a, b, rfl⟩
    · exact consecutive_mem f h
  | [_], h => by simp [consecutive] at h
  | [], h => by simp [consecutive] at h

/-! Breaks. -/

theorem breaksApart_iff : ∀ ts : List R, breaksApart ts = true ↔ Apart ts
  | [] => by simp [breaksApart, Apart]
  | [_] => by simp [breaksApart, Apart]
  | a :: b :: rest => by
    have := breaksApart_iff (b :: rest)
    simp only [Apart] at this
    simp [breaksApart, Apart, List.isChain_cons_cons, this]

theorem timesIncrease_iff : ∀ ts : List R, timesIncrease ts = true ↔ Apart ts
  | [] => by simp [timesIncrease, Apart]
  | [_] => by simp [timesIncrease, Apart]
  | a :: b :: rest => by
    have := timesIncrease_iff (b :: rest)
    simp only [Apart] at this
    simp only [timesIncrease, Apart, List.isChain_cons_cons, this, Bool.and_eq_true, decide_eq_true_eq, not_lt]
    refine and_congr_left fun _ => ⟨fun h => h.2, fun h => ⟨?_, h⟩⟩
    have := epsilonTime_pos (R := R)
    linarith

theorem Spec.Apart.increasing {ts : List R} (h : Apart ts) : ts.Pairwise (· < ·) := by
  refine List.isChain_iff_pairwise.1 (h.imp fun a b hab => ?_)
  have := epsilonTime_pos (R := R)
  linarith

theorem Spec.Apart.gap {ts : List R} (h : Apart ts) (i : Nat) (hi : i + 1 < ts.length) : epsilonTime ≤ ts[i + 1] - ts[i] := by
  exact List.isChain_iff_getElem.1 h i hi

theorem checkInput_iff (ts ys : List R) (n : Nat) :
    checkInput ts ys n = .ok () ↔ ts.length = ys.length ∧ n ≤ ts.length ∧ Apart ts := by
  unfold checkInput throwUnless
  rw [← timesIncrease_iff]
  by_cases h1 : ts.length = ys.length
  · by_cases h2 : n ≤ ts.length
    · by_cases h3 : timesIncrease ts = true
      · simp [h1, h3, bind, Except.bind, h1 ▸ h2]
      · simp [h1, h3, bind, Except.bind, h1 ▸ h2]
    · simp [h1, h1 ▸ h2, bind, Except.bind]
  · simp [h1, bind, Except.bind]

theorem checkInput_error {ts ys : List R} {n : Nat} (h : ¬(ts.length = ys.length ∧ n ≤ ts.length ∧ Apart ts)) :
    checkInput ts ys n = .error .throws := by
  rw [← checkInput_iff] at h
  unfold checkInput throwUnless at h ⊢
  generalize decide (ts.length = ys.length) = a at h ⊢
  generalize decide (n ≤ ts.length) = b at h ⊢
  generalize timesIncrease ts = c at h ⊢
  cases a <;> cases b <;> cases c <;> first | rfl | exact absurd rfl h

theorem make_ok {ts : List R} (h : Apart ts) (qs : List (Polynomial R)) : make qs ts = .ok ⟨ts, qs⟩ := by
  unfold make; rw [if_pos ((breaksApart_iff ts).2 h)]; rfl

theorem valid_consecutive {α : Type} (f : α → α → Polynomial R) (hf : ∀ a b, (f a b).isUnivariate = true)
    {ts : List R} {l : List α} (h : Apart ts) (h2 : 2 ≤ ts.length) (hl : l.length = ts.length) :
    Valid ⟨ts, consecutive f l⟩ where
  lengths := by simp only [consecutive_length]; omega
  segments := by simp only [consecutive_length]; omega
  increasing := h.increasing
  univariate := fun q hq => by obtain ⟨a, b, rfl⟩ := consecutive_mem f hq; exact hf a b

/-- The value in a closed segment, when neighbouring pieces agree at their common break. -/
theorem evalPieces_closed {ts : List R} {qs : List (Polynomial R)} (hl : ts.length = qs.length + 1)
    (hp : ts.Pairwise (· < ·)) (n : Nat)
    (hm : ∀ i (hi : i + 1 < qs.length), derivAt n (ts[i + 1]'(by omega) - ts[i]'(by omega)) qs[i].monomials =
      derivAt n 0 qs[i + 1].monomials)
    (i : Nat) (hi : i < qs.length) (t : R) (h1 : ts[i]'(by omega) ≤ t) (h2 : t ≤ ts[i + 1]'(by omega)) :
    evalPieces n t ts qs = derivAt n (t - ts[i]'(by omega)) qs[i].monomials := by
  by_cases h : t < ts[i + 1]'(by omega) ∨ i + 2 = ts.length
  · refine evalPieces_seg n t i _ _ hl hp hi (by omega) ⟨ts[i], ts[i + 1], List.getElem?_eq_getElem _,
      List.getElem?_eq_getElem _, h1, ?_⟩
    rcases h with h | h
    · exact .inl h
    · exact h2.lt_or_eq.imp id fun e => ⟨e, h⟩
  · push Not at h
    have he : t = ts[i + 1]'(by omega) := le_antisymm h2 h.1
    have hi' : i + 1 < qs.length := by omega
    rw [evalPieces_seg n t (i + 1) _ _ hl hp hi' (by omega) ⟨ts[i + 1], ts[i + 2], List.getElem?_eq_getElem _,
      List.getElem?_eq_getElem _, he.ge, .inl ?_⟩, he, sub_self, hm i hi']
    rw [he]; exact List.pairwise_iff_getElem.1 hp _ _ _ _ (by omega)

/-! Pieces. -/

theorem derivAt_zero_const (x c : R) : derivAt 0 x (ofCoefficients tVar [c]).monomials = c := by
  simp [derivAt, ofCoefficients, Monomial.firstPower]

theorem derivAt_linear (x c d : R) : derivAt 0 x (ofCoefficients tVar [c, d]).monomials = c + d * x := by
  simp [derivAt, ofCoefficients, Monomial.firstPower]

theorem derivAt_cubic (x a b c d : R) : derivAt 0 x (ofCoefficients tVar [a, b, c, d]).monomials =
    a + b * x + c * x ^ 2 + d * x ^ 3 := by
  simp [derivAt, ofCoefficients, Monomial.firstPower]; ring

theorem derivAt_cubic' (x a b c d : R) : derivAt 1 x (ofCoefficients tVar [a, b, c, d]).monomials =
    b + 2 * c * x + 3 * d * x ^ 2 := by
  simp [derivAt, ofCoefficients, Monomial.firstPower, Nat.descFactorial]; ring

/-- The coefficients of a cubic piece. -/
def hermiteCoeffs (dt y0 y1 yd0 yd1 : R) : List R :=
  [y0, yd0, 1 / (dt * dt) * (y1 - y0 - dt * yd0 - dt * (yd1 - yd0 - 2 / dt * (y1 - y0 - dt * yd0))),
    1 / (dt * dt) * (yd1 - yd0 - 2 / dt * (y1 - y0 - dt * yd0))]

theorem cubicCoefficients_ok {dt : R} (h : epsilonTime ≤ dt) (y0 y1 yd0 yd1 : R) :
    cubicCoefficients dt y0 y1 yd0 yd1 = .ok (hermiteCoeffs dt y0 y1 yd0 yd1) := by
  unfold cubicCoefficients throwUnless
  rw [if_pos (by simpa using h)]; rfl

theorem cubicCoefficients_error {dt : R} (h : dt < epsilonTime) (y0 y1 yd0 yd1 : R) :
    cubicCoefficients dt y0 y1 yd0 yd1 = .error .throws := by
  unfold cubicCoefficients throwUnless
  rw [if_neg (by simpa using h)]; rfl

/-- The piece between two samples with derivatives. -/
def hermiteQ (a b : R × R × R) : Polynomial R :=
  ofCoefficients tVar (hermiteCoeffs (b.1 - a.1) a.2.1 b.2.1 a.2.2 b.2.2)

/-- The value of the piece in terms of the usual basis. -/
theorem hermiteQ_value (a b : R × R × R) (x : R) (h : b.1 - a.1 ≠ 0) :
    let dt := b.1 - a.1
    derivAt 0 x (hermiteQ a b).monomials = a.2.1 + a.2.2 * x +
      (3 * (b.2.1 - a.2.1) / dt - 2 * a.2.2 - b.2.2) / dt * x ^ 2 +
      (a.2.2 + b.2.2 - 2 * (b.2.1 - a.2.1) / dt) / dt ^ 2 * x ^ 3 := by
  intro dt
  have hd : dt ≠ 0 := h
  unfold hermiteQ hermiteCoeffs
  rw [derivAt_cubic]
  change _ + _ + 1 / (dt * dt) * (_ - dt * (_ - 2 / dt * _)) * _ + _ = _
  field_simp
  ring

theorem hermiteQ_deriv (a b : R × R × R) (x : R) (h : b.1 - a.1 ≠ 0) :
    let dt := b.1 - a.1
    derivAt 1 x (hermiteQ a b).monomials = a.2.2 +
      2 * ((3 * (b.2.1 - a.2.1) / dt - 2 * a.2.2 - b.2.2) / dt) * x +
      3 * ((a.2.2 + b.2.2 - 2 * (b.2.1 - a.2.1) / dt) / dt ^ 2) * x ^ 2 := by
  intro dt
  have hd : dt ≠ 0 := h
  unfold hermiteQ hermiteCoeffs
  rw [derivAt_cubic']
  change _ + 2 * (1 / (dt * dt) * (_ - dt * (_ - 2 / dt * _))) * _ + _ = _
  field_simp
  ring

theorem hermiteQ_start (a b : R × R × R) : derivAt 0 0 (hermiteQ a b).monomials = a.2.1 := by
  unfold hermiteQ hermiteCoeffs; rw [derivAt_cubic]; simp

theorem hermiteQ_start' (a b : R × R × R) : derivAt 1 0 (hermiteQ a b).monomials = a.2.2 := by
  unfold hermiteQ hermiteCoeffs; rw [derivAt_cubic']; simp

theorem hermiteQ_end (a b : R × R × R) (h : b.1 - a.1 ≠ 0) :
    derivAt 0 (b.1 - a.1) (hermiteQ a b).monomials = b.2.1 := by
  rw [hermiteQ_value a b _ h]; field_simp; ring

theorem hermiteQ_end' (a b : R × R × R) (h : b.1 - a.1 ≠ 0) :
    derivAt 1 (b.1 - a.1) (hermiteQ a b).monomials = b.2.2 := by
  rw [hermiteQ_deriv a b _ h]; field_simp; ring

theorem hermitePieces_ok : ∀ l : List (R × R × R), Apart (l.map (·.1)) →
    hermitePieces l = .ok (consecutive hermiteQ l)
  | [], _ => rfl
  | [_], _ => rfl
  | a :: b :: rest, h => by
    simp only [Apart, List.map_cons, List.isChain_cons_cons] at h
    have ih := hermitePieces_ok (b :: rest) (by simpa only [Apart, List.map_cons] using h.2)
    unfold hermitePieces
    rw [cubicCoefficients_ok h.1, ih]
    rfl

theorem zeroOrderPieces_eq : ∀ l : List R, zeroOrderPieces l = consecutive (fun a _ => ofCoefficients tVar [a]) l
  | [] => rfl
  | [_] => rfl
  | a :: b :: rest => by simp only [zeroOrderPieces, consecutive, zeroOrderPieces_eq (b :: rest)]

/-- The piece of a polygon. -/
def linearQ (a b : R × R) : Polynomial R := ofCoefficients tVar [a.2, (b.2 - a.2) / (b.1 - a.1)]

theorem firstOrderPieces_eq : ∀ l : List (R × R), firstOrderPieces l = consecutive linearQ l
  | [] => rfl
  | [_] => rfl
  | a :: b :: rest => by simp only [firstOrderPieces, consecutive, firstOrderPieces_eq (b :: rest)]; rfl

theorem zip_fst {α β : Type} {xs : List α} {ys : List β} (h : xs.length = ys.length) : (xs.zip ys).map (·.1) = xs :=
  List.map_fst_zip (by omega)

theorem cubicHermite_eq {ts ys ds : List R} (h1 : ts.length = ys.length) (h2 : ts.length = ds.length)
    (h3 : 2 ≤ ts.length) (h4 : Apart ts) :
    cubicHermite ts ys ds = .ok ⟨ts, consecutive hermiteQ (ts.zip (ys.zip ds))⟩ := by
  unfold cubicHermite
  rw [(checkInput_iff ts ys 2).2 ⟨h1, h3, h4⟩, hermitePieces_ok _ (by
    rw [zip_fst (by rw [List.length_zip]; omega)]; exact h4)]
  simp only [throwUnless, h2, decide_true, if_true]
  exact make_ok h4 _

end Maliput.Piecewise
