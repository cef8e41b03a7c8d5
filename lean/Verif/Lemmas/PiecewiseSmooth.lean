import Verif.Lemmas.PiecewiseSplines
import Mathlib.Analysis.Calculus.Deriv.Pow
import Mathlib.Analysis.Calculus.Deriv.Add
import Mathlib.Analysis.Calculus.Deriv.Mul
import Mathlib.Analysis.Calculus.Deriv.Comp

set_option autoImplicit false

/-! The derivatives and the continuity of piecewise polynomials over the real numbers. -/
namespace Maliput.Piecewise

open Maliput Poly Spec

theorem derivAt_hasDerivAt (n : Nat) (ms : List (Monomial ℝ)) (x : ℝ) :
    HasDerivAt (fun x => derivAt n x ms) (derivAt (n + 1) x ms) x := by
  induction ms with
  | nil => simpa [derivAt] using hasDerivAt_const x (0 : ℝ)
  | cons m ms ih =>
    simp only [derivAt_cons]
    refine HasDerivAt.add ?_ ih
    have h := (hasDerivAt_pow (m.firstPower - n) x).const_mul (m.coefficient * (m.firstPower.descFactorial n : ℝ))
    have e : m.coefficient * (m.firstPower.descFactorial (n + 1) : ℝ) * x ^ (m.firstPower - (n + 1)) =
        m.coefficient * (m.firstPower.descFactorial n : ℝ) * (((m.firstPower - n : ℕ) : ℝ) * x ^ (m.firstPower - n - 1)) := by
      rw [Nat.descFactorial_succ, Nat.sub_sub]
      push_cast
      ring
    rw [e]
    exact h

theorem derivAt_shift_hasDerivAt (n : Nat) (ms : List (Monomial ℝ)) (b x : ℝ) :
    HasDerivAt (fun x => derivAt n (x - b) ms) (derivAt (n + 1) (x - b) ms) x := by
  have := (derivAt_hasDerivAt n ms (x - b)).comp x ((hasDerivAt_id x).sub_const b)
  rw [mul_one] at this
  exact this

/-- Two functions joined at a point where they and their derivatives agree. -/
theorem hasDerivAt_join {f g : ℝ → ℝ} {f' g' b t : ℝ} (hf : t ≤ b → HasDerivAt f f' t) (hg : b ≤ t → HasDerivAt g g' t)
    (h : t = b → f t = g t ∧ f' = g') :
    HasDerivAt (fun s => if s < b then f s else g s) (if t < b then f' else g') t := by
  rcases lt_trichotomy t b with ht | ht | ht
  · rw [if_pos ht]
    refine (hf ht.le).congr_of_eventuallyEq ?_
    filter_upwards [Iio_mem_nhds ht] with s hs
    exact if_pos hs
  · obtain ⟨e, e'⟩ := h ht
    rw [if_neg (by rw [ht]; exact lt_irrefl _)]
    have h1 : HasDerivWithinAt (fun s => if s < b then f s else g s) g' (Set.Iic b) t := by
      refine (e' ▸ (hf ht.le)).hasDerivWithinAt.congr (fun s hs => ?_) ?_
      · rcases (Set.mem_Iic.1 hs).lt_or_eq with h | h
        · exact if_pos h
        · rw [if_neg (by rw [h]; exact lt_irrefl _), h, ← ht, e]
      · rw [if_neg (by rw [ht]; exact lt_irrefl _), e]
    have h2 : HasDerivWithinAt (fun s => if s < b then f s else g s) g' (Set.Ici b) t := by
      refine (hg ht.ge).hasDerivWithinAt.congr (fun s hs => ?_) ?_
      · exact if_neg (not_lt.2 hs)
      · exact if_neg (not_lt.2 ht.ge)
    have := h1.union h2
    rw [Set.Iic_union_Ici] at this
    exact this.hasDerivAt Filter.univ_mem
  · rw [if_neg (not_lt.2 ht.le)]
    refine (hg ht.le).congr_of_eventuallyEq ?_
    filter_upwards [Ioi_mem_nhds ht] with s hs
    exact if_neg (not_lt.2 (le_of_lt hs))

theorem evalPieces_head {n : Nat} {b0 b1 : ℝ} {bs : List ℝ} {q : Poly.Polynomial ℝ} {qs : List (Poly.Polynomial ℝ)} (h : b0 < b1) :
    evalPieces n b0 (b0 :: b1 :: bs) (q :: qs) = derivAt n 0 q.monomials := by
  unfold evalPieces; rw [if_pos (.inr h), sub_self]

/-- The pieces agree, up to the order `n`, at a break that is `t`. -/
def MatchAt (n : Nat) (t : ℝ) : List ℝ → List (Poly.Polynomial ℝ) → Prop
  | b0 :: b1 :: bs, q :: r :: qs =>
    (t = b1 → derivAt n (b1 - b0) q.monomials = derivAt n 0 r.monomials) ∧ MatchAt n t (b1 :: bs) (r :: qs)
  | _, _ => True

theorem matchAt_of {n : Nat} {t : ℝ} : ∀ {bs : List ℝ} {qs : List (Poly.Polynomial ℝ)} (_hl : bs.length = qs.length + 1)
    (_h : ∀ i (hi : i + 1 < qs.length), t = bs[i + 1]'(by omega) →
      derivAt n (bs[i + 1]'(by omega) - bs[i]'(by omega)) qs[i].monomials = derivAt n 0 qs[i + 1].monomials),
    MatchAt n t bs qs
  | [], _, _, _ => trivial
  | [_], _, _, _ => trivial
  | _ :: _ :: _, [], _, _ => trivial
  | _ :: _ :: _, [_], _, _ => trivial
  | b0 :: b1 :: bs, q :: r :: qs, hl, h => by
    refine ⟨h 0 (by simp), matchAt_of (by simpa using hl) fun i hi ht => ?_⟩
    exact h (i + 1) (by simpa using hi) ht

theorem evalPieces_hasDerivAt (n : Nat) (t : ℝ) : ∀ (bs : List ℝ) (qs : List (Poly.Polynomial ℝ)),
    bs.length = qs.length + 1 → bs.Pairwise (· < ·) → MatchAt n t bs qs → MatchAt (n + 1) t bs qs →
    HasDerivAt (fun s => evalPieces n s bs qs) (evalPieces (n + 1) t bs qs) t
  | [], _, hl, _, _, _ => by simp at hl
  | [b], qs, hl, _, _, _ => by simpa [evalPieces] using hasDerivAt_const t (0 : ℝ)
  | b0 :: b1 :: bs, [], hl, _, _, _ => by simp at hl
  | b0 :: b1 :: bs, [q], hl, _, _, _ => by
    simpa [evalPieces] using derivAt_shift_hasDerivAt n q.monomials b0 t
  | [_, _], _ :: _ :: _, hl, _, _, _ => by simp at hl
  | b0 :: b1 :: b2 :: bs, q :: r :: qs, hl, hp, h1, h2 => by
    have ih := evalPieces_hasDerivAt n t (b1 :: b2 :: bs) (r :: qs) (by simpa using hl) hp.of_cons h1.2 h2.2
    have hlt : b1 < b2 := (List.pairwise_cons.1 hp.of_cons).1 b2 (by simp)
    have e : ∀ m s, evalPieces m s (b0 :: b1 :: b2 :: bs) (q :: r :: qs) =
        if s < b1 then derivAt m (s - b0) q.monomials else evalPieces m s (b1 :: b2 :: bs) (r :: qs) := by
      intro m s; rw [evalPieces]; simp
    simp only [e]
    refine hasDerivAt_join (fun _ => derivAt_shift_hasDerivAt n q.monomials b0 t) (fun _ => ih) fun ht => ?_
    have e1 := h1.1 ht
    have e2 := h2.1 ht
    rw [ht, e1, e2, evalPieces_head hlt, evalPieces_head hlt]
    exact ⟨rfl, rfl⟩

theorem evalPieces_continuous (n : Nat) : ∀ (bs : List ℝ) (qs : List (Poly.Polynomial ℝ)),
    bs.length = qs.length + 1 → bs.Pairwise (· < ·) → (∀ t, MatchAt n t bs qs) →
    Continuous (fun s => evalPieces n s bs qs)
  | [], _, hl, _, _ => by simp at hl
  | [b], qs, hl, _, _ => by simpa [evalPieces] using continuous_const
  | b0 :: b1 :: bs, [], hl, _, _ => by simp at hl
  | b0 :: b1 :: bs, [q], hl, _, _ => by
    have h : ∀ t, ContinuousAt (fun s => derivAt n (s - b0) q.monomials) t := fun t =>
      (derivAt_shift_hasDerivAt n q.monomials b0 t).continuousAt
    simpa [evalPieces] using continuous_iff_continuousAt.2 h
  | [_, _], _ :: _ :: _, hl, _, _ => by simp at hl
  | b0 :: b1 :: b2 :: bs, q :: r :: qs, hl, hp, h1 => by
    have ih := evalPieces_continuous n (b1 :: b2 :: bs) (r :: qs) (by simpa using hl) hp.of_cons fun t => (h1 t).2
    have hlt : b1 < b2 := (List.pairwise_cons.1 hp.of_cons).1 b2 (by simp)
    have e : ∀ s, evalPieces n s (b0 :: b1 :: b2 :: bs) (q :: r :: qs) =
        if b1 ≤ s then evalPieces n s (b1 :: b2 :: bs) (r :: qs) else derivAt n (s - b0) q.monomials := by
      intro s; rw [evalPieces]
      by_cases h : s < b1
      · rw [if_pos (.inr h), if_neg (not_le.2 h)]
      · rw [if_neg (by simp [not_lt.1 h]), if_pos (not_lt.1 h)]
    simp only [e]
    refine Continuous.if_le ih (continuous_iff_continuousAt.2 fun t =>
      (derivAt_shift_hasDerivAt n q.monomials b0 t).continuousAt) continuous_const continuous_id fun x hx => ?_
    have hx : b1 = x := hx
    rw [← hx, evalPieces_head hlt, (h1 b1).1 rfl]

theorem saturated_continuous (p : PP ℝ) (h : first p ≤ last p) : Continuous (saturated p) := by
  have : saturated p = fun t => min (max t (first p)) (last p) := by
    funext t
    unfold saturated
    split
    · rename_i h'; rw [max_eq_right h'.le, min_eq_left h]
    · rename_i h'
      rw [max_eq_left (not_lt.1 h')]
      split
      · rename_i h; exact (min_eq_right h.le).symm
      · rename_i h; exact (min_eq_left (not_lt.1 h)).symm
  rw [this]
  fun_prop

theorem saturated_eventually (p : PP ℝ) {t : ℝ} (h1 : first p < t) (h2 : t < last p) : ∀ᶠ s in nhds t, saturated p s = s := by
  filter_upwards [Ioi_mem_nhds h1, Iio_mem_nhds h2] with s a b
  unfold saturated
  rw [if_neg (not_lt.2 (le_of_lt a)), if_neg (not_lt.2 (le_of_lt b))]

end Maliput.Piecewise
