import Verif.Spec.PiecewisePolynomial
import Verif.Lemmas.PolynomialMore
import Verif.Lemmas.Monad

set_option autoImplicit false
set_option linter.unusedSectionVars false

/-! Lemmas about piecewise polynomials. -/
namespace Maliput.Piecewise

open Maliput Poly Spec

variable {R : Type} [Field R] [LinearOrder R]

theorem nth_ok {α : Type} {l : List α} {i : Nat} (h : i < l.length) : nth l i = .ok l[i] := by
  unfold nth; rw [List.getElem?_eq_getElem h]

/-- What the pieces give when they are searched from the left. -/
def evalPieces (n : Nat) (t : R) : List R → List (Polynomial R) → R
  | b0 :: b1 :: bs, q :: qs => if qs = [] ∨ t < b1 then derivAt n (t - b0) q.monomials else evalPieces n t (b1 :: bs) qs
  | _, _ => 0

theorem evalPieces_seg (n : Nat) (t : R) : ∀ (i : Nat) (bs : List R) (qs : List (Polynomial R)),
    bs.length = qs.length + 1 → bs.Pairwise (· < ·) → ∀ (hi : i < qs.length) (hb : i < bs.length),
    InSegment bs t i → evalPieces n t bs qs = derivAt n (t - bs[i]) qs[i].monomials := by
  intro i
  induction i with
  | zero =>
    intro bs qs hl hp hi hb h
    match bs, qs, hl with
    | b0 :: b1 :: bs, q :: qs, hl =>
      obtain ⟨a, b, ha, hb, h1, h2⟩ := h
      simp at ha hb; subst ha hb
      unfold evalPieces
      rw [if_pos]
      · rfl
      · rcases h2 with h | ⟨-, h⟩
        · exact .inr h
        · left
          simp only [List.length_cons] at h hl
          exact List.length_eq_zero_iff.1 (by omega)
  | succ i ih =>
    intro bs qs hl hp hi hb h
    match bs, qs, hl with
    | [b0], q :: qs, hl => simp at hl
    | b0 :: b1 :: bs, q :: qs, hl =>
      have h' : InSegment (b1 :: bs) t i := by
        obtain ⟨a, b, ha, hb, h1, h2⟩ := h
        exact ⟨a, b, by simpa using ha, by simpa using hb, h1, by simpa using h2⟩
      unfold evalPieces
      rw [if_neg]
      · exact ih (b1 :: bs) qs (by simpa using hl) hp.of_cons (by simpa using hi) (by simpa using hb) h'
      · rintro (h | h)
        · subst h; simp at hi
        · obtain ⟨a, b, ha, hb, h1, h2⟩ := h'
          have : b1 ≤ a := by
            cases i with
            | zero => simp at ha; exact ha.le
            | succ i =>
              have hm := List.mem_of_getElem? (l := bs) (i := i) (by simpa using ha)
              exact ((List.pairwise_cons.1 hp.of_cons).1 _ hm).le
          exact absurd (this.trans h1) (not_le.2 h)

theorem segmentIndexRec_ok (bs : List R) (hp : bs.Pairwise (· < ·)) (t : R) : ∀ (n s e : Nat) (hse : s < e)
    (he : e < bs.length), e - s ≤ n → bs[s] ≤ t → (t < bs[e] ∨ t = bs[e] ∧ e + 1 = bs.length) →
    ∃ i, segmentIndexRec bs t n s e = .ok i ∧ InSegment bs t i := by
  intro n
  induction n with
  | zero => intro s e hse he hn; omega
  | succ n ih =>
    intro s e hse he hn h1 h2
    have hle : t ≤ bs[e] := h2.elim (·.le) (·.1.le)
    unfold segmentIndexRec
    rw [if_neg (by omega), nth_ok he, nth_ok (show s < bs.length by omega)]
    dsimp only [bind, Except.bind]
    rw [if_neg (by push Not; exact ⟨hle, h1⟩)]
    by_cases hd : e - s ≤ 1
    · rw [if_pos hd]
      have : e = s + 1 := by omega
      subst this
      exact ⟨s, rfl, bs[s], bs[s + 1], List.getElem?_eq_getElem _, List.getElem?_eq_getElem _, h1, by
        simpa using h2⟩
    · rw [if_neg hd, nth_ok (show (s + e) / 2 < bs.length by omega)]
      dsimp only
      suffices H : ∀ m (hm1 : s < m) (hm2 : m < e), ∃ i,
          (if t < bs[m] then segmentIndexRec bs t n s m else if bs[m] < t then segmentIndexRec bs t n m e
            else pure m) = .ok i ∧ InSegment bs t i from H _ (by omega) (by omega)
      intro m hm1 hm2
      by_cases hlt : t < bs[m]
      · rw [if_pos hlt]
        exact ih s m hm1 (by omega) (by omega) h1 (.inl hlt)
      · rw [if_neg hlt]
        by_cases hgt : bs[m] < t
        · rw [if_pos hgt]
          exact ih m e hm2 he (by omega) hgt.le h2
        · rw [if_neg hgt]
          have heq : t = bs[m] := le_antisymm (not_lt.1 hgt) (not_lt.1 hlt)
          refine ⟨m, rfl, bs[m], bs[m + 1], List.getElem?_eq_getElem _, List.getElem?_eq_getElem _, heq.ge, ?_⟩
          left
          rw [heq]
          exact List.pairwise_iff_getElem.1 hp _ _ _ _ (Nat.lt_succ_self m)

section valid
variable {p : PP R} (hv : Valid p)
include hv

theorem Spec.Valid.segments_eq : p.segments = p.polynomials.length := by
  unfold PP.segments; rw [hv.lengths]; rfl

theorem Spec.Valid.pos : 0 < p.breaks.length := by rw [hv.lengths]; omega

theorem Spec.Valid.first_eq : first p = p.breaks[0]'hv.pos := by
  unfold first
  rw [List.headD_eq_head?_getD, List.head?_eq_getElem?, List.getElem?_eq_getElem hv.pos]; rfl

theorem Spec.Valid.last_eq : last p = p.breaks[p.breaks.length - 1]'(by have := hv.pos; omega) := by
  have := hv.pos
  unfold last
  rw [List.getLastD_eq_getLast?, List.getLast?_eq_getElem?, List.getElem?_eq_getElem (by omega)]; rfl

theorem Spec.Valid.first_lt_last : first p < last p := by
  rw [hv.first_eq, hv.last_eq]
  have := hv.lengths; have := hv.segments
  exact List.pairwise_iff_getElem.1 hv.increasing _ _ _ _ (by omega)

theorem Spec.Valid.startOf {i : Nat} (hi : i < p.polynomials.length) :
    p.startOf i = .ok (p.breaks[i]'(by rw [hv.lengths]; omega)) := by
  unfold PP.startOf throwUnless
  rw [hv.segments_eq]
  simp only [hi, decide_true, if_true]
  exact nth_ok _

theorem Spec.Valid.startTime : p.startTime = .ok (first p) := by
  unfold PP.startTime; rw [hv.startOf hv.segments, hv.first_eq]

theorem Spec.Valid.endTime : p.endTime = .ok (last p) := by
  have h1 := hv.segments; have h2 := hv.lengths
  unfold PP.endTime PP.endOf throwUnless
  rw [hv.segments_eq]
  simp only [h1, decide_true, if_true, show p.polynomials.length - 1 < p.polynomials.length by omega]
  dsimp only [bind, Except.bind]
  rw [nth_ok (by omega), hv.last_eq]
  congr 2; omega

theorem Spec.Valid.clip (t : R) : p.clip t = .ok (saturated p t) := by
  unfold PP.clip
  rw [hv.startTime, hv.endTime]
  show Except.ok _ = _
  congr 1
  have := hv.first_lt_last
  unfold saturated
  split
  · rename_i h; rw [max_eq_right h.le, min_eq_left this.le]
  · rename_i h
    rw [max_eq_left (not_lt.1 h)]
    split
    · rename_i h; exact min_eq_right h.le
    · rename_i h; exact min_eq_left (not_lt.1 h)

theorem Spec.Valid.saturated_mem (t : R) : first p ≤ saturated p t ∧ saturated p t ≤ last p := by
  have := hv.first_lt_last
  unfold saturated
  split
  · exact ⟨le_refl _, this.le⟩
  · rename_i h
    split
    · exact ⟨this.le, le_refl _⟩
    · rename_i h'; exact ⟨not_lt.1 h, not_lt.1 h'⟩

theorem Spec.Valid.segmentIndex (t : R) : ∃ i, p.segmentIndex t = .ok i ∧ InSegment p.breaks (saturated p t) i := by
  have h1 := hv.segments; have h2 := hv.lengths
  unfold PP.segmentIndex
  rw [if_neg (by intro h; rw [h] at h2; simp at h2), hv.clip]
  obtain ⟨m1, m2⟩ := hv.saturated_mem t
  rw [hv.first_eq] at m1
  rw [hv.last_eq] at m2
  refine segmentIndexRec_ok _ hv.increasing _ _ 0 _ (by omega) (by omega) (by omega) m1 ?_
  rcases m2.lt_or_eq with h | h
  · exact .inl h
  · exact .inr ⟨h, by omega⟩

theorem Spec.Valid.evaluateSegment {i : Nat} (hi : i < p.polynomials.length) (t : R) (n : Nat) :
    p.evaluateSegment i t n = .ok (derivAt n (t - p.breaks[i]'(by rw [hv.lengths]; omega)) p.polynomials[i].monomials) := by
  unfold PP.evaluateSegment
  rw [nth_ok hi, hv.startOf hi]
  exact evaluateUnivariate_ok _ _ _ (hv.univariate _ (List.getElem_mem hi))

theorem inSegment_lt {t : R} {i : Nat} (h : InSegment p.breaks t i) : i < p.polynomials.length := by
  obtain ⟨_, b, -, hb, -⟩ := h
  have := (List.getElem?_eq_some_iff.1 hb).1
  rw [hv.lengths] at this; omega

theorem Spec.Valid.evalDerivative (t : R) (n : Nat) :
    p.evalDerivative t n = .ok (evalPieces n (saturated p t) p.breaks p.polynomials) := by
  obtain ⟨i, h1, h2⟩ := hv.segmentIndex t
  have hi := inSegment_lt hv h2
  unfold PP.evalDerivative
  rw [h1, hv.clip]
  show p.evaluateSegment i _ _ = _
  rw [hv.evaluateSegment hi, evalPieces_seg n _ i _ _ hv.lengths hv.increasing hi (by rw [hv.lengths]; omega) h2]

theorem Spec.Valid.scalarValue (t : R) (h1 : first p ≤ t) (h2 : t ≤ last p) :
    p.scalarValue t = .ok (evalPieces 0 t p.breaks p.polynomials) := by
  have hs : saturated p t = t := by unfold saturated; rw [if_neg (not_lt.2 h1), if_neg (not_lt.2 h2)]
  obtain ⟨i, hi1, hi2⟩ := hv.segmentIndex t
  rw [hs] at hi2
  have hi := inSegment_lt hv hi2
  unfold PP.scalarValue
  rw [hi1]
  show p.evaluateSegment i _ _ = _
  rw [hv.evaluateSegment hi, evalPieces_seg 0 _ i _ _ hv.lengths hv.increasing hi (by rw [hv.lengths]; omega) hi2]

end valid

end Maliput.Piecewise
