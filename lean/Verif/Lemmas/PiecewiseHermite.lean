import Verif.Lemmas.PiecewiseShape
import Verif.Lemmas.PiecewiseSmooth
import Verif.Lemmas.PiecewiseTransform

set_option autoImplicit false
set_option linter.unusedSectionVars false

/-! Lemmas about the piecewise polynomials made of samples. -/
namespace Maliput.Piecewise

open Maliput Poly Spec

section general
variable {R : Type} [Field R] [LinearOrder R] [IsStrictOrderedRing R]

theorem ofCoefficients_inOne (cs : List R) : InOne tVar (ofCoefficients tVar cs) where
  univariate := rfl
  inVariable := by
    intro m hm
    obtain ⟨i, hi, rfl⟩ := List.mem_mapIdx.1 hm
    dsimp only
    split
    · exact .inr ⟨i, rfl⟩
    · exact .inl rfl
  positive := by
    intro m hm t ht
    obtain ⟨i, hi, rfl⟩ := List.mem_mapIdx.1 hm
    dsimp only at ht
    split at ht
    · rename_i h; simp at ht; rw [ht]; exact h
    · simp at ht
  distinct := by
    refine List.pairwise_iff_getElem.2 fun i j hi hj hij => ?_
    simp only [ofCoefficients, List.getElem_mapIdx]
    rw [if_pos (show 0 < j by omega)]
    split <;> simp
    omega

theorem samples_length {ts ys ds : List R} (h1 : ts.length = ys.length) (h2 : ts.length = ds.length) :
    (ts.zip (ys.zip ds)).length = ts.length := by simp; omega

theorem samples_getElem {ts ys ds : List R} (h1 : ts.length = ys.length) (h2 : ts.length = ds.length) (i : Nat)
    (hi : i < ts.length) : (ts.zip (ys.zip ds))[i]'(by rw [samples_length h1 h2]; exact hi) =
      (ts[i], ys[i]'(by omega), ds[i]'(by omega)) := by simp

/-- The piecewise polynomial of the samples with derivatives. -/
def hermitePP (ts ys ds : List R) : PP R := ⟨ts, consecutive hermiteQ (ts.zip (ys.zip ds))⟩

theorem hermitePP_piece {ts ys ds : List R} (h1 : ts.length = ys.length) (h2 : ts.length = ds.length) (i : Nat) (hi : i + 1 < ts.length) :
    (hermitePP ts ys ds).polynomials[i]'(by
      show _ < (consecutive _ _).length; rw [consecutive_length, samples_length h1 h2]; omega) =
    hermiteQ (ts[i], ys[i]'(by omega), ds[i]'(by omega)) (ts[i + 1], ys[i + 1]'(by omega), ds[i + 1]'(by omega)) := by
  have := consecutive_getElem hermiteQ (ts.zip (ys.zip ds)) i (by rw [samples_length h1 h2]; exact hi)
  rw [samples_getElem h1 h2 i (by omega), samples_getElem h1 h2 (i + 1) hi] at this
  exact this

theorem gap_ne {ts : List R} (h4 : Apart ts) (i : Nat) (hi : i + 1 < ts.length) : 0 < ts[i + 1] - ts[i] :=
  epsilonTime_pos.trans_le (h4.gap i hi)

/-- A time between the first and the last break is not moved. -/
theorem saturated_of_mem {p : PP R} {t : R} (a : first p ≤ t) (b : t ≤ last p) : saturated p t = t := by
  unfold saturated; rw [if_neg (not_lt.2 a), if_neg (not_lt.2 b)]

theorem Spec.Valid.segment_mem {p : PP R} (hv : Valid p) {t : R} {i : Nat} (hi : i + 1 < p.breaks.length)
    (a : p.breaks[i] ≤ t) (b : t ≤ p.breaks[i + 1]) : first p ≤ t ∧ t ≤ last p := by
  constructor
  · refine le_trans ?_ a
    rw [hv.first_eq]
    rcases Nat.eq_zero_or_pos i with h | h
    · subst h; exact le_refl _
    · exact (List.pairwise_iff_getElem.1 hv.increasing _ _ _ _ h).le
  · refine b.trans ?_
    rw [hv.last_eq]
    rcases Nat.lt_or_ge (i + 1) (p.breaks.length - 1) with h | h
    · exact (List.pairwise_iff_getElem.1 hv.increasing _ _ _ _ h).le
    · have : p.breaks.length - 1 = i + 1 := by omega
      simp only [this]; exact le_refl _

variable {ts ys ds : List R} (h1 : ts.length = ys.length) (h2 : ts.length = ds.length) (h3 : 2 ≤ ts.length) (h4 : Apart ts)
include h1 h2 h3 h4

theorem hermitePP_valid : Valid (hermitePP ts ys ds) :=
  valid_consecutive hermiteQ (fun _ _ => rfl) h4 h3 (samples_length h1 h2)

theorem hermitePP_match (n : Nat) (hn : n < 2) (i : Nat) (hi : i + 1 < (hermitePP ts ys ds).polynomials.length) :
    derivAt n (ts[i + 1]'(by have := (hermitePP_valid h1 h2 h3 h4).lengths; simp only [hermitePP] at this hi ⊢; omega) -
      ts[i]'(by have := (hermitePP_valid h1 h2 h3 h4).lengths; simp only [hermitePP] at this hi ⊢; omega))
      (hermitePP ts ys ds).polynomials[i].monomials = derivAt n 0 (hermitePP ts ys ds).polynomials[i + 1].monomials := by
  have hl := (hermitePP_valid h1 h2 h3 h4).lengths
  have hb : i + 2 < ts.length := by
    have : (hermitePP ts ys ds).breaks = ts := rfl
    rw [this] at hl; omega
  rw [hermitePP_piece h1 h2 i (by omega), hermitePP_piece h1 h2 (i + 1) hb]
  have hg := (gap_ne h4 i (by omega)).ne'
  match n, hn with
  | 0, _ =>
    rw [hermiteQ_start]
    exact hermiteQ_end (ts[i], ys[i]'(by omega), ds[i]'(by omega)) (ts[i + 1], ys[i + 1]'(by omega), ds[i + 1]'(by omega)) hg
  | 1, _ =>
    rw [hermiteQ_start']
    exact hermiteQ_end' (ts[i], ys[i]'(by omega), ds[i]'(by omega)) (ts[i + 1], ys[i + 1]'(by omega), ds[i + 1]'(by omega)) hg

/-- The value in a closed segment. -/
theorem hermitePP_eval (n : Nat) (hn : n < 2) (i : Nat) (hi : i + 1 < ts.length) (t : R) (ha : ts[i] ≤ t) (hb : t ≤ ts[i + 1]) :
    (hermitePP ts ys ds).evalDerivative t n = .ok (derivAt n (t - ts[i])
      (hermiteQ (ts[i], ys[i]'(by omega), ds[i]'(by omega)) (ts[i + 1], ys[i + 1]'(by omega), ds[i + 1]'(by omega))).monomials) := by
  have hv := hermitePP_valid h1 h2 h3 h4
  have hl := hv.lengths
  have hb' : (hermitePP ts ys ds).breaks = ts := rfl
  rw [hb'] at hl
  obtain ⟨m1, m2⟩ := hv.segment_mem (t := t) (i := i) hi ha hb
  rw [hv.evalDerivative, saturated_of_mem m1 m2]
  congr 1
  rw [← hermitePP_piece h1 h2 i hi]
  exact evalPieces_closed hl hv.increasing n (hermitePP_match h1 h2 h3 h4 n hn) i (by omega) t ha hb

end general

section shape
variable {R : Type} [Field R] [LinearOrder R] [IsStrictOrderedRing R]

theorem end_slopes {l : List (R × R)} (hl3 : 3 ≤ l.length) (hinc : ∀ i (h : i + 1 < l.length), 0 < l[i + 1].1 - l[i].1)
    (hclear : ∀ i (hi : i + 1 < l.length), Clear (slopeOf l[i] l[i + 1])) :
    ∃ d0 d1 : R, startSlope l = .ok d0 ∧ finalSlope l.reverse = .ok d1 ∧ Limited d0 (slopeOf l[0] l[1]) ∧
      Limited d1 (slopeOf l[l.length - 2] l[l.length - 1]) := by
  have r : ∃ a b c rest, l = a :: b :: c :: rest := by
    match l, hl3 with
    | a :: b :: c :: rest, _ => exact ⟨a, b, c, rest, rfl⟩
  obtain ⟨a, b, c, rest, hab⟩ := r
  have r' : l.reverse = l[l.length - 1] :: l[l.length - 2] :: l[l.length - 3] :: l.reverse.drop 3 := by
    apply List.ext_getElem
    · simp; omega
    · intro i hi hj
      match i with
      | 0 => simp
      | 1 => simp only [List.getElem_reverse, List.getElem_cons_succ, List.getElem_cons_zero]; congr 1
      | 2 => simp only [List.getElem_reverse, List.getElem_cons_succ, List.getElem_cons_zero]; congr 1
      | i + 3 => simp; congr 1; omega
  have q1 : l.length - 3 + 1 = l.length - 2 := by omega
  have q2 : l.length - 2 + 1 = l.length - 1 := by omega
  have i1 := hinc (l.length - 3) (by omega)
  have i2 := hinc (l.length - 2) (by omega)
  have c1 := hclear (l.length - 3) (by omega)
  have c2 := hclear (l.length - 2) (by omega)
  simp only [q1] at i1 c1
  simp only [q2] at i2 c2
  refine ⟨endSlope (l[1].1 - l[0].1) (l[2].1 - l[1].1) (slopeOf l[0] l[1]) (slopeOf l[1] l[2]), _, ?_, ?_,
    endSlope_limited (hinc 0 (by omega)) (hinc 1 (by omega)) (hclear 0 (by omega)) (hclear 1 (by omega)),
    endSlope_limited i2 i1 c2 c1⟩
  · subst hab; rfl
  · rw [r']; rfl

theorem cubicShape_eq {ts ys : List R} {z : Bool} (h1 : ts.length = ys.length) (h3 : (if z then 2 else 3) ≤ ts.length)
    (h4 : Apart ts) (hc : z = false → ∀ i (hi : i + 1 < ts.length),
      Clear ((ys[i + 1]'(by omega) - ys[i]'(by omega)) / (ts[i + 1] - ts[i]))) :
    ∃ ds, ∃ (h2 : ts.length = ds.length), cubicShapePreserving ts ys z = .ok (hermitePP ts ys ds) ∧
      (∀ i (hi : i + 1 < ts.length),
        Limited (ds[i]'(by omega)) ((ys[i + 1]'(by omega) - ys[i]'(by omega)) / (ts[i + 1] - ts[i])) ∧
        Limited (ds[i + 1]'(by omega)) ((ys[i + 1]'(by omega) - ys[i]'(by omega)) / (ts[i + 1] - ts[i]))) ∧
      (z = true → ds.head? = some 0 ∧ ds.getLast? = some 0) := by
  have h2' : 2 ≤ ts.length := by split at h3 <;> omega
  have hlen : (ts.zip ys).length = ts.length := by simp; omega
  have hsl : ∀ i (hi : i + 1 < ts.length), slopeOf ((ts.zip ys)[i]'(by omega)) ((ts.zip ys)[i + 1]'(by omega)) =
      (ys[i + 1]'(by omega) - ys[i]'(by omega)) / (ts[i + 1]'hi - ts[i]'(by omega)) := by
    intro i hi; simp [slopeOf]
  have hinc : ∀ i (h : i + 1 < (ts.zip ys).length), 0 < (ts.zip ys)[i + 1].1 - (ts.zip ys)[i].1 := by
    intro i hi
    have := gap_ne h4 i (by omega)
    simpa using this
  obtain ⟨d0, d1, e0, e1, l0, l1, hz⟩ : ∃ d0 d1 : R,
      (if z then pure 0 else startSlope (ts.zip ys) : Except Err R) = .ok d0 ∧
      (if z then pure 0 else finalSlope (ts.zip ys).reverse : Except Err R) = .ok d1 ∧
      Limited d0 (slopeOf ((ts.zip ys)[0]'(by omega)) ((ts.zip ys)[1]'(by omega))) ∧
      Limited d1 (slopeOf ((ts.zip ys)[(ts.zip ys).length - 2]'(by omega)) ((ts.zip ys)[(ts.zip ys).length - 1]'(by omega))) ∧
      (z = true → d0 = 0 ∧ d1 = 0) := by
    cases z with
    | true => exact ⟨0, 0, rfl, rfl, limited_zero _, limited_zero _, fun _ => ⟨rfl, rfl⟩⟩
    | false =>
      have h3 : 3 ≤ ts.length := by simpa using h3
      have hclear : ∀ i (hi : i + 1 < (ts.zip ys).length), Clear (slopeOf (ts.zip ys)[i] (ts.zip ys)[i + 1]) := by
        intro i hi; rw [hsl i (by omega)]; exact hc rfl i (by omega)
      have hl3 : 3 ≤ (ts.zip ys).length := by omega
      obtain ⟨d0, d1, a, b, c, d⟩ := end_slopes hl3 hinc hclear
      exact ⟨d0, d1, a, b, c, d, fun h => by cases h⟩
  have hds : (d0 :: innerSlopes (ts.zip ys) ++ [d1]).length = (ts.zip ys).length := by
    simp only [List.cons_append, List.length_cons, List.length_append, innerSlopes_length, List.length_nil]; omega
  refine ⟨d0 :: innerSlopes (ts.zip ys) ++ [d1], by omega, ?_, ?_, ?_⟩
  · unfold cubicShapePreserving
    rw [(checkInput_iff ts ys _).2 ⟨h1, h3, h4⟩]
    show (do
      let first ← (if z then pure 0 else startSlope (ts.zip ys) : Except Err R)
      let last ← (if z then pure 0 else finalSlope (ts.zip ys).reverse : Except Err R)
      make (← hermitePieces (ts.zip (ys.zip (first :: innerSlopes (ts.zip ys) ++ [last])))) ts) = _
    rw [e0, e1]
    show (do make (← hermitePieces (ts.zip (ys.zip (d0 :: innerSlopes (ts.zip ys) ++ [d1])))) ts) = _
    rw [hermitePieces_ok _ (by rw [zip_fst (by rw [List.length_zip]; omega)]; exact h4)]
    exact make_ok h4 _
  · intro i hi
    have := shape_slopes (l := ts.zip ys) (d0 := d0) (d1 := d1) (by omega) hinc l0 l1 i (by omega) hds
    rw [hsl i hi] at this
    exact this
  · intro h
    obtain ⟨a, b⟩ := hz h
    subst a b
    exact ⟨rfl, by rw [List.getLast?_append]; rfl⟩
end shape

end Maliput.Piecewise
