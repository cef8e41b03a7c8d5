import Verif.Lemmas.PiecewiseSplines

set_option autoImplicit false
set_option linter.unusedSectionVars false

/-! Lemmas about the shape of cubic pieces. -/
namespace Maliput.Piecewise

open Maliput Poly Spec

variable {R : Type} [Field R] [LinearOrder R] [IsStrictOrderedRing R]

/-- The derivative at the end of a segment has the sign of the slope and at most three times its size. -/
def Limited (d s : R) : Prop := (0 ≤ s → 0 ≤ d ∧ d ≤ 3 * s) ∧ (s ≤ 0 → 3 * s ≤ d ∧ d ≤ 0)

theorem limited_zero (s : R) : Limited 0 s :=
  ⟨fun h => ⟨le_refl _, by linarith⟩, fun h => ⟨by linarith, le_refl _⟩⟩

theorem Limited.neg {d s : R} (h : Limited d s) : Limited (-d) (-s) :=
  ⟨fun hs => by have := h.2 (by linarith); constructor <;> linarith,
   fun hs => by have := h.1 (by linarith); constructor <;> linarith⟩

theorem innerSlope_neg (a b s0 s1 : R) : innerSlope a b (-s0) (-s1) = -innerSlope a b s0 s1 := by
  unfold innerSlope
  rw [neg_mul_neg]
  split
  · simp
  · dsimp only
    rw [div_neg, div_neg, ← neg_add, div_neg]

theorem innerSlope_bound {a b s0 s1 : R} (ha : 0 < a) (hb : 0 < b) (h0 : 0 < s0) (h1 : 0 < s1) :
    0 ≤ innerSlope a b s0 s1 ∧ innerSlope a b s0 s1 ≤ 3 * s0 ∧ innerSlope a b s0 s1 ≤ 3 * s1 := by
  unfold innerSlope
  rw [if_neg (not_le.2 (mul_pos h0 h1))]
  dsimp only
  have p0 : 0 < (a + b + b) / s0 := by positivity
  have p1 : 0 < (a + b + a) / s1 := by positivity
  refine ⟨by positivity, ?_, ?_⟩
  · rw [div_le_iff₀ (by positivity)]
    have : 3 * s0 * ((a + b + b) / s0) = 3 * (a + b + b) := by field_simp
    have : 0 < 3 * s0 * ((a + b + a) / s1) := by positivity
    rw [mul_add]; linarith
  · rw [div_le_iff₀ (by positivity)]
    have : 3 * s1 * ((a + b + a) / s1) = 3 * (a + b + a) := by field_simp
    have : 0 < 3 * s1 * ((a + b + b) / s0) := by positivity
    rw [mul_add]; linarith

theorem innerSlope_limited {a b : R} (ha : 0 < a) (hb : 0 < b) (s0 s1 : R) :
    Limited (innerSlope a b s0 s1) s0 ∧ Limited (innerSlope a b s0 s1) s1 := by
  by_cases h : s0 * s1 ≤ 0
  · have : innerSlope a b s0 s1 = 0 := by unfold innerSlope; rw [if_pos h]
    rw [this]; exact ⟨limited_zero _, limited_zero _⟩
  · rcases lt_trichotomy s0 0 with h0 | h0 | h0
    · have h1 : s1 < 0 := by
        by_contra hc; exact h (mul_nonpos_of_nonpos_of_nonneg h0.le (not_lt.1 hc))
      have := innerSlope_bound ha hb (neg_pos.2 h0) (neg_pos.2 h1)
      rw [innerSlope_neg] at this
      obtain ⟨t1, t2, t3⟩ := this
      refine ⟨⟨fun hs => ?_, fun _ => ?_⟩, ⟨fun hs => ?_, fun _ => ?_⟩⟩ <;> constructor <;> linarith
    · rw [h0, zero_mul] at h; exact absurd (le_refl _) h
    · have h1 : 0 < s1 := by
        by_contra hc; exact h (mul_nonpos_of_nonneg_of_nonpos h0.le (not_lt.1 hc))
      obtain ⟨t1, t2, t3⟩ := innerSlope_bound ha hb h0 h1
      refine ⟨⟨fun hs => ?_, fun _ => ?_⟩, ⟨fun hs => ?_, fun _ => ?_⟩⟩ <;> constructor <;> linarith

theorem slopeEpsilon_pos : (0 : R) < slopeEpsilon := by unfold slopeEpsilon; positivity

/-- A slope that counts: zero, or more than the tolerance. -/
def Clear (s : R) : Prop := s = 0 ∨ slopeEpsilon < |s|

theorem sign_neg (x tol : R) (h : 0 ≤ tol) : sign (-x) tol = -sign x tol := by
  unfold sign
  by_cases h1 : x < -tol
  · rw [if_neg (by linarith), if_pos (show -x > tol by linarith), if_pos h1]; rfl
  · by_cases h2 : x > tol
    · rw [if_pos (by linarith), if_neg h1, if_pos h2]
    · rw [if_neg (by linarith), if_neg (by linarith), if_neg h1, if_neg h2]; rfl

theorem endSlope_neg (a b s0 s1 : R) : endSlope a b (-s0) (-s1) = -endSlope a b s0 s1 := by
  have hp := (slopeEpsilon_pos (R := R)).le
  have e : ((2 * a + b) * -s0 - a * -s1) / (a + b) = -(((2 * a + b) * s0 - a * s1) / (a + b)) := by ring
  unfold endSlope
  dsimp only
  rw [e]
  generalize ((2 * a + b) * s0 - a * s1) / (a + b) = d
  rw [sign_neg d _ hp, sign_neg s0 _ hp, sign_neg s1 _ hp, mul_neg, abs_neg, abs_neg]
  simp only [ne_eq, neg_inj]
  split
  · simp
  · split <;> rfl

theorem endSlope_limited_nonneg {a b : R} (ha : 0 < a) (hb : 0 < b) {s0 s1 : R} (h0 : Clear s0) (h1 : Clear s1)
    (hs : 0 ≤ s0) : Limited (endSlope a b s0 s1) s0 := by
  have hp := slopeEpsilon_pos (R := R)
  have hab : 0 < a + b := by positivity
  unfold endSlope
  dsimp only
  set d := ((2 * a + b) * s0 - a * s1) / (a + b) with hd
  have hde : d * (a + b) = (2 * a + b) * s0 - a * s1 := by rw [hd]; field_simp
  split
  · exact limited_zero s0
  rename_i hsg
  push Not at hsg
  rcases h0 with rfl | h0
  · have hs0 : sign (0 : R) slopeEpsilon = 0 := by
      unfold sign; rw [if_neg (by simpa using hp.le), if_neg (by simpa using hp.le)]
    rcases h1 with rfl | h1
    · have : d = 0 := by simp [hd]
      rw [this]; simpa using limited_zero (0 : R)
    · rw [if_pos]
      · simpa using limited_zero (0 : R)
      · constructor
        · rw [hs0]
          unfold sign
          rcases lt_abs.1 h1 with h | h
          · rw [if_neg (by linarith), if_pos h]; decide
          · rw [if_pos (by linarith)]; decide
        · rw [mul_zero, abs_zero]
          refine abs_pos.2 fun hz => ?_
          rw [hz] at hde
          have : a * s1 = 0 := by linarith
          rcases mul_eq_zero.1 this with h | h
          · exact ha.ne' h
          · rw [h, abs_zero] at h1; exact absurd h1 (not_lt.2 hp.le)
  · rw [abs_of_nonneg hs] at h0
    have hs0 : sign s0 slopeEpsilon = 1 := by unfold sign; rw [if_neg (by linarith), if_pos h0]
    have hdp : slopeEpsilon < d := by
      rw [hs0] at hsg
      unfold sign at hsg
      by_contra hc
      rw [if_neg (show ¬ d > slopeEpsilon from hc)] at hsg
      split at hsg <;> cases hsg
    split
    · exact ⟨fun _ => ⟨by linarith, le_refl _⟩, fun h => by linarith⟩
    · rename_i hcond
      refine ⟨fun _ => ⟨by linarith, ?_⟩, fun h => by linarith⟩
      by_cases hsg1 : sign s0 slopeEpsilon ≠ sign s1 slopeEpsilon
      · have := not_lt.1 fun h => hcond ⟨hsg1, h⟩
        rwa [abs_of_pos (by linarith), abs_of_nonneg (by linarith)] at this
      · push Not at hsg1
        have hs1 : 0 < s1 := by
          rw [hs0] at hsg1
          unfold sign at hsg1
          split at hsg1
          · cases hsg1
          · split at hsg1
            · rename_i h; linarith
            · cases hsg1
        have : d * (a + b) ≤ 3 * s0 * (a + b) := by
          rw [hde]; nlinarith [mul_pos ha hs1, mul_nonneg ha.le hs, mul_nonneg hb.le hs]
        exact le_of_mul_le_mul_right this hab

theorem Clear.neg {s : R} (h : Clear s) : Clear (-s) := by
  rcases h with rfl | h
  · left; simp
  · right; rwa [abs_neg]

theorem endSlope_limited {a b : R} (ha : 0 < a) (hb : 0 < b) {s0 s1 : R} (h0 : Clear s0) (h1 : Clear s1) :
    Limited (endSlope a b s0 s1) s0 := by
  rcases le_total 0 s0 with hs | hs
  · exact endSlope_limited_nonneg ha hb h0 h1 hs
  · have := (endSlope_limited_nonneg ha hb h0.neg h1.neg (by linarith : 0 ≤ -s0)).neg
    rwa [endSlope_neg, neg_neg, neg_neg] at this

/-! Monotone pieces. -/

/-- The derivative of a piece with limited derivatives at its ends. -/
theorem hermite_deriv_nonneg {dt s d0 d1 x : R} (hdt : 0 < dt) (hs : 0 ≤ s) (h0 : 0 ≤ d0 ∧ d0 ≤ 3 * s)
    (h1 : 0 ≤ d1 ∧ d1 ≤ 3 * s) (hx : 0 ≤ x) (hx' : x ≤ dt) :
    0 ≤ d0 + 2 * ((3 * s - 2 * d0 - d1) / dt) * x + 3 * ((d0 + d1 - 2 * s) / dt ^ 2) * x ^ 2 := by
  obtain ⟨u, rfl⟩ : ∃ u, x = u * dt := ⟨x / dt, by field_simp⟩
  have hu0 : 0 ≤ u := by by_contra hc; push Not at hc; nlinarith
  have hu1 : u ≤ 1 := by by_contra hc; push Not at hc; nlinarith
  have e : d0 + 2 * ((3 * s - 2 * d0 - d1) / dt) * (u * dt) + 3 * ((d0 + d1 - 2 * s) / dt ^ 2) * (u * dt) ^ 2 =
      d0 * ((1 - u) * (1 - 3 * u)) + d1 * (u * (3 * u - 2)) + 6 * s * (u * (1 - u)) := by
    field_simp; ring
  rw [e]
  rcases hs.lt_or_eq with hs | rfl
  · have key : (d0 * ((1 - u) * (1 - 3 * u)) + d1 * (u * (3 * u - 2)) + 6 * s * (u * (1 - u))) * (9 * s) =
        (3 * s - d0) * (3 * s - d1) * (6 * (u * (1 - u))) + d0 * (3 * s - d1) * (3 * (1 - u) ^ 2) +
        (3 * s - d0) * d1 * (3 * u ^ 2) + d0 * d1 * (3 * (1 - 2 * u) ^ 2) := by ring
    have hu2 : 0 ≤ 1 - u := by linarith
    have a0 : 0 ≤ 3 * s - d0 := by linarith
    have a1 : 0 ≤ 3 * s - d1 := by linarith
    have b0 := h0.1
    have b1 := h1.1
    have hk : 0 ≤ (d0 * ((1 - u) * (1 - 3 * u)) + d1 * (u * (3 * u - 2)) + 6 * s * (u * (1 - u))) * (9 * s) := by
      rw [key]; positivity
    by_contra hc
    push Not at hc
    have := mul_neg_of_neg_of_pos hc (show 0 < 9 * s by linarith)
    linarith
  · have : d0 = 0 := by linarith [h0.1, h0.2]
    have : d1 = 0 := by linarith [h1.1, h1.2]
    subst_vars; simp

/-- A cubic polynomial with a nonnegative derivative does not decrease. -/
theorem cubic_mono {a b c d lo hi : R} (h : ∀ x, lo ≤ x → x ≤ hi → 0 ≤ b + 2 * c * x + 3 * d * x ^ 2) {x y : R}
    (hx : lo ≤ x) (hxy : x ≤ y) (hy : y ≤ hi) :
    a + b * x + c * x ^ 2 + d * x ^ 3 ≤ a + b * y + c * y ^ 2 + d * y ^ 3 := by
  have h1 := h x hx (hxy.trans hy)
  have h2 := h ((x + y) / 2) (by linarith) (by linarith)
  have h3 := h y (hx.trans hxy) hy
  have key : a + b * y + c * y ^ 2 + d * y ^ 3 - (a + b * x + c * x ^ 2 + d * x ^ 3) =
      (y - x) / 6 * ((b + 2 * c * x + 3 * d * x ^ 2) +
        4 * (b + 2 * c * ((x + y) / 2) + 3 * d * ((x + y) / 2) ^ 2) + (b + 2 * c * y + 3 * d * y ^ 2)) := by
    ring
  have : 0 ≤ (y - x) / 6 := by linarith
  have := mul_nonneg this (show 0 ≤ (b + 2 * c * x + 3 * d * x ^ 2) +
        4 * (b + 2 * c * ((x + y) / 2) + 3 * d * ((x + y) / 2) ^ 2) + (b + 2 * c * y + 3 * d * y ^ 2) by linarith)
  linarith

theorem hermiteQ_neg (a b : R × R × R) (x : R) (h : b.1 - a.1 ≠ 0) :
    derivAt 0 x (hermiteQ (a.1, -a.2.1, -a.2.2) (b.1, -b.2.1, -b.2.2)).monomials =
      -derivAt 0 x (hermiteQ a b).monomials := by
  rw [hermiteQ_value a b x h, hermiteQ_value (a.1, -a.2.1, -a.2.2) (b.1, -b.2.1, -b.2.2) x h]; dsimp only; ring

theorem hermiteQ_mono {a b : R × R × R} (hdt : 0 < b.1 - a.1) (h0 : Limited a.2.2 ((b.2.1 - a.2.1) / (b.1 - a.1)))
    (h1 : Limited b.2.2 ((b.2.1 - a.2.1) / (b.1 - a.1))) (hle : a.2.1 ≤ b.2.1) {x y : R} (hx : 0 ≤ x) (hxy : x ≤ y)
    (hy : y ≤ b.1 - a.1) : derivAt 0 x (hermiteQ a b).monomials ≤ derivAt 0 y (hermiteQ a b).monomials := by
  have hs : 0 ≤ (b.2.1 - a.2.1) / (b.1 - a.1) := div_nonneg (by linarith) hdt.le
  rw [hermiteQ_value a b _ hdt.ne', hermiteQ_value a b _ hdt.ne']
  refine cubic_mono (lo := 0) (hi := b.1 - a.1) (fun z hz hz' => ?_) hx hxy hy
  have := hermite_deriv_nonneg hdt hs (h0.1 hs) (h1.1 hs) hz hz'
  rwa [show 3 * ((b.2.1 - a.2.1) / (b.1 - a.1)) = 3 * (b.2.1 - a.2.1) / (b.1 - a.1) by ring,
    show 2 * ((b.2.1 - a.2.1) / (b.1 - a.1)) = 2 * (b.2.1 - a.2.1) / (b.1 - a.1) by ring] at this

theorem hermiteQ_anti {a b : R × R × R} (hdt : 0 < b.1 - a.1) (h0 : Limited a.2.2 ((b.2.1 - a.2.1) / (b.1 - a.1)))
    (h1 : Limited b.2.2 ((b.2.1 - a.2.1) / (b.1 - a.1))) (hle : b.2.1 ≤ a.2.1) {x y : R} (hx : 0 ≤ x) (hxy : x ≤ y)
    (hy : y ≤ b.1 - a.1) : derivAt 0 y (hermiteQ a b).monomials ≤ derivAt 0 x (hermiteQ a b).monomials := by
  have e : -((b.2.1 - a.2.1) / (b.1 - a.1)) = (-b.2.1 - -a.2.1) / (b.1 - a.1) := by ring
  have := hermiteQ_mono (a := (a.1, -a.2.1, -a.2.2)) (b := (b.1, -b.2.1, -b.2.2)) hdt (by
    have := h0.neg; rwa [e] at this) (by have := h1.neg; rwa [e] at this) (by simpa using hle) hx hxy hy
  rw [hermiteQ_neg _ _ _ hdt.ne', hermiteQ_neg _ _ _ hdt.ne'] at this
  linarith

/-! The derivatives of `CubicShapePreserving`. -/

theorem innerSlopes_length : ∀ l : List (R × R), (innerSlopes l).length = l.length - 2
  | [] => rfl
  | [_] => rfl
  | [_, _] => rfl
  | a :: b :: c :: rest => by
    have := innerSlopes_length (b :: c :: rest)
    simp only [innerSlopes, List.length_cons] at this ⊢; omega

theorem innerSlopes_getElem : ∀ (l : List (R × R)) (i : Nat) (h : i + 2 < l.length),
    (innerSlopes l)[i]'(by rw [innerSlopes_length]; omega) =
      innerSlope (l[i + 1].1 - l[i].1) (l[i + 2].1 - l[i + 1].1) (slopeOf l[i] l[i + 1]) (slopeOf l[i + 1] l[i + 2])
  | a :: b :: c :: rest, 0, h => rfl
  | a :: b :: c :: rest, i + 1, h => by
    have := innerSlopes_getElem (b :: c :: rest) i (by simp at h ⊢; omega)
    simpa [innerSlopes] using this
  | [], _, h => by simp at h
  | [_], _, h => by simp at h
  | [_, _], _, h => by simp at h

/-- The slopes that `CubicShapePreserving` gives to the samples are limited by those of both segments. -/
theorem shape_slopes {l : List (R × R)} {d0 d1 : R} (h2 : 2 ≤ l.length)
    (hinc : ∀ i (h : i + 1 < l.length), 0 < l[i + 1].1 - l[i].1)
    (hd0 : Limited d0 (slopeOf l[0] l[1])) (hd1 : Limited d1 (slopeOf l[l.length - 2] l[l.length - 1]))
    (i : Nat) (hi : i + 1 < l.length) (hlen : (d0 :: innerSlopes l ++ [d1]).length = l.length) :
    Limited ((d0 :: innerSlopes l ++ [d1])[i]'(by omega)) (slopeOf l[i] l[i + 1]) ∧
    Limited ((d0 :: innerSlopes l ++ [d1])[i + 1]'(by omega)) (slopeOf l[i] l[i + 1]) := by
  have hil := innerSlopes_length l
  constructor
  · cases i with
    | zero => simpa using hd0
    | succ i =>
      have e : (d0 :: innerSlopes l ++ [d1])[i + 1]'(by omega) = (innerSlopes l)[i]'(by omega) := by
        simp only [List.cons_append, List.getElem_cons_succ]
        exact List.getElem_append_left (by omega)
      rw [e, innerSlopes_getElem l i (by omega)]
      exact (innerSlope_limited (hinc i (by omega)) (hinc (i + 1) (by omega)) _ _).2
  · by_cases hlast : i + 2 = l.length
    · have e : (d0 :: innerSlopes l ++ [d1])[i + 1]'(by omega) = d1 := by
        simp only [List.cons_append, List.getElem_cons_succ]
        rw [List.getElem_append_right (by omega)]; simp
      rw [e]
      have e1 : l.length - 2 = i := by omega
      have e2 : l.length - 1 = i + 1 := by omega
      simpa only [e1, e2] using hd1
    · have e : (d0 :: innerSlopes l ++ [d1])[i + 1]'(by omega) = (innerSlopes l)[i]'(by omega) := by
        simp only [List.cons_append, List.getElem_cons_succ]
        exact List.getElem_append_left (by omega)
      rw [e, innerSlopes_getElem l i (by omega)]
      exact (innerSlope_limited (hinc i (by omega)) (hinc (i + 1) (by omega)) _ _).1

end Maliput.Piecewise
