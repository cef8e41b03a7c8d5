import Verif.Lemmas.PiecewiseSplines
import Mathlib.Tactic.Push

set_option autoImplicit false
set_option linter.unusedSectionVars false

/-! Lemmas about the operations on piecewise polynomials. -/
namespace Maliput.Piecewise

open Maliput Poly Spec

variable {R : Type} [Field R] [LinearOrder R] [IsStrictOrderedRing R]

theorem evalPieces_congr (n m : Nat) (t : R) : ∀ (bs : List R) {qs rs : List (Polynomial R)},
    List.Forall₂ (fun q r => ∀ x : R, derivAt n x q.monomials = derivAt m x r.monomials) qs rs →
    evalPieces n t bs qs = evalPieces m t bs rs
  | [], _, _, _ => by simp [evalPieces]
  | [_], _, _, _ => by simp [evalPieces]
  | b0 :: b1 :: bs, _, _, .nil => by simp [evalPieces]
  | b0 :: b1 :: bs, _, _, .cons h hs => by
    have ih := evalPieces_congr n m t (b1 :: bs) hs
    have : (∀ l r : List (Polynomial R), List.Forall₂ (fun q r => ∀ x : R, derivAt n x q.monomials = derivAt m x r.monomials) l r →
      (l = [] ↔ r = [])) := by
      intro l r h; cases h <;> simp
    simp only [evalPieces, ih, h, this _ _ hs]

theorem evalPieces_zipWith (op : Polynomial R → Polynomial R → Polynomial R) (f : R → R → R) (t : R) :
    ∀ (bs : List R) (ps qs : List (Polynomial R)), bs.length = ps.length + 1 → 0 < ps.length → ps.length = qs.length →
    (∀ p ∈ ps, ∀ q ∈ qs, ∀ x : R, derivAt 0 x (op p q).monomials = f (derivAt 0 x p.monomials) (derivAt 0 x q.monomials)) →
    evalPieces 0 t bs (List.zipWith op ps qs) = f (evalPieces 0 t bs ps) (evalPieces 0 t bs qs)
  | b0 :: b1 :: bs, p :: ps, q :: qs, hl, hs, hlen, h => by
    have e : List.zipWith op ps qs = [] ↔ ps = [] := by
      rw [List.zipWith_eq_nil_iff]
      constructor
      · rintro (h | h)
        · exact h
        · subst h; simpa using hlen
      · exact .inl
    have e' : qs = [] ↔ ps = [] := by
      rw [← List.length_eq_zero_iff, ← List.length_eq_zero_iff]
      simp at hlen; omega
    simp only [List.zipWith_cons_cons, evalPieces, e, e', h p (by simp) q (by simp)]
    split
    · rfl
    · rename_i hn
      push Not at hn
      exact evalPieces_zipWith op f t (b1 :: bs) ps qs (by simpa using hl) (List.length_pos_iff.2 hn.1)
        (by simpa using hlen) fun p hp q hq => h p (by simp [hp]) q (by simp [hq])
  | [_], p :: ps, q :: qs, hl, hs, hlen, h => by simp at hl
  | [], p :: ps, q :: qs, hl, hs, hlen, h => by simp at hl
  | bs, [], qs, hl, hs, hlen, h => by simp at hs
  | bs, p :: ps, [], hl, hs, hlen, h => by simp at hlen

theorem evalPieces_scale {s : R} (hs : 0 < s) (t : R) : ∀ (bs : List R) {qs rs : List (Polynomial R)},
    List.Forall₂ (fun q r => ∀ x : R, derivAt 0 (x * s) r.monomials = derivAt 0 x q.monomials) qs rs →
    evalPieces 0 (t * s) (bs.map (· * s)) rs = evalPieces 0 t bs qs
  | [], _, _, _ => by simp [evalPieces]
  | [_], _, _, _ => by simp [evalPieces]
  | b0 :: b1 :: bs, _, _, .nil => by simp [evalPieces]
  | b0 :: b1 :: bs, _, _, .cons h hfs => by
    have ih := evalPieces_scale hs t (b1 :: bs) hfs
    have : (∀ l r : List (Polynomial R), List.Forall₂ (fun q r => ∀ x : R, derivAt 0 (x * s) r.monomials = derivAt 0 x q.monomials) l r →
      (l = [] ↔ r = [])) := by
      intro l r h; cases h <;> simp
    simp only [List.map_cons] at ih ⊢
    simp only [evalPieces, ih, ← sub_mul, h, this _ _ hfs, mul_lt_mul_iff_left₀ hs]

/-! Pieces in one variable. -/

section
variable {v : Nat} {q : Polynomial R}

theorem Spec.InOne.good (h : InOne v q) : Good q.monomials := by
  intro m hm
  rcases h.inVariable m hm with e | ⟨k, e⟩ <;> rw [e] <;> simp

theorem Spec.InOne.value (h : InOne v q) (x : R) : derivAt 0 x q.monomials = valueAt (fun _ => x) q.monomials :=
  derivAt_zero_eq h.inVariable fun _ => x

theorem Spec.InOne.powers (h : InOne v q) : q.monomials.Pairwise fun m n => m.firstPower ≠ n.firstPower := by
  refine List.Pairwise.imp_of_mem ?_ h.distinct
  intro m n hm hn hne he
  apply hne
  rcases h.inVariable m hm with e | ⟨k, e⟩ <;> rcases h.inVariable n hn with e' | ⟨k', e'⟩ <;>
    simp only [Monomial.firstPower, e, e'] at he ⊢
  · have := h.positive n hn ⟨v, k'⟩ (by simp [e']); simp at this; omega
  · have := h.positive m hm ⟨v, k⟩ (by simp [e]); simp at this; omega
  · rw [he]

theorem Spec.InOne.coefficients (h : InOne v q) : ∃ cs, getCoefficients q = .ok cs ∧
    ∀ x, powerSeries x cs = derivAt 0 x q.monomials := by
  unfold getCoefficients
  rw [if_pos h.univariate]
  refine ⟨_, rfl, fun x => ?_⟩
  rw [coefficients_loop x _ _ h.powers, powerSeries_replicate, zero_add]
  intro m hm
  have := getDegree_le q hm
  rw [← firstPower_eq_getDegree (h.inVariable m hm)] at this
  rw [List.getElem?_replicate, if_pos (by omega)]

theorem Spec.InOne.constant (h : InOne v q) (hd : getDegree q = 0) : ∀ m ∈ q.monomials, m.terms = [] := by
  intro m hm
  rcases h.inVariable m hm with e | ⟨k, e⟩
  · exact e
  · have h1 := h.positive m hm ⟨v, k⟩ (by simp [e])
    have h2 := getDegree_le q hm
    rw [hd] at h2
    simp [Monomial.getDegree, e] at h2 h1
    omega

theorem derivAt_constant {ms : List (Monomial R)} (h : ∀ m ∈ ms, m.terms = []) (x y : R) : derivAt 0 x ms = derivAt 0 y ms := by
  induction ms with
  | nil => rfl
  | cons m ms ih =>
    have := ih fun n hn => h n (by simp [hn])
    rw [derivAt_cons, derivAt_cons, this]
    simp [Monomial.firstPower, h m (by simp)]

theorem powerSeries_mapIdx (s : R) (hs : s ≠ 0) (x : R) : ∀ (cs : List R) (k : Nat),
    powerSeries (x * s) (cs.mapIdx fun p c => if 1 ≤ p + k then c / s ^ (p + k) else c) = powerSeries x cs / s ^ k
  | [], k => by simp [powerSeries]
  | c :: cs, k => by
    have ih := powerSeries_mapIdx s hs x cs (k + 1)
    rw [List.mapIdx_cons, powerSeries, powerSeries]
    have e : (cs.mapIdx fun i c => if 1 ≤ i + 1 + k then c / s ^ (i + 1 + k) else c) =
        cs.mapIdx fun p c => if 1 ≤ p + (k + 1) then c / s ^ (p + (k + 1)) else c := by
      congr 1; funext i c; rw [show i + 1 + k = i + (k + 1) by omega]
    rw [e, ih]
    have e0 : (if 1 ≤ 0 + k then c / s ^ (0 + k) else c) = c / s ^ k := by
      rcases Nat.eq_zero_or_pos k with h | h
      · subst h; simp
      · rw [Nat.zero_add, if_pos (show 1 ≤ k from h)]
    rw [e0]
    field_simp
    ring

theorem derivAt_ofCoefficients_aux (x : R) : ∀ (cs : List R) (k : Nat),
    derivAt 0 x (cs.mapIdx fun i c => (⟨c, if 0 < i + k then [⟨tVar, i + k⟩] else []⟩ : Monomial R)) =
      x ^ k * powerSeries x cs
  | [], k => by simp [derivAt, powerSeries]
  | c :: cs, k => by
    have ih := derivAt_ofCoefficients_aux x cs (k + 1)
    rw [List.mapIdx_cons, derivAt_cons, powerSeries]
    have e : (cs.mapIdx fun i c => (⟨c, if 0 < i + 1 + k then [⟨tVar, i + 1 + k⟩] else []⟩ : Monomial R)) =
        cs.mapIdx fun i c => (⟨c, if 0 < i + (k + 1) then [⟨tVar, i + (k + 1)⟩] else []⟩ : Monomial R) := by
      congr 1; funext i c; rw [show i + 1 + k = i + (k + 1) by omega]
    rw [e, ih]
    have e0 : (⟨c, if 0 < 0 + k then [⟨tVar, 0 + k⟩] else []⟩ : Monomial R).firstPower = k := by
      rcases Nat.eq_zero_or_pos k with h | h
      · subst h; simp [Monomial.firstPower]
      · simp [Monomial.firstPower, h]
    rw [e0]
    simp
    ring

theorem derivAt_ofCoefficients (x : R) (cs : List R) :
    derivAt 0 x (ofCoefficients tVar cs).monomials = powerSeries x cs := by
  have := derivAt_ofCoefficients_aux x cs 0
  simpa [ofCoefficients] using this

theorem scalePiece_spec {s : R} (hs : 0 < s) (h : InOne v q) : ∃ r, scalePiece s q = .ok r ∧ r.isUnivariate = true ∧
    ∀ x : R, derivAt 0 (x * s) r.monomials = derivAt 0 x q.monomials := by
  unfold scalePiece
  split
  · rename_i hd
    exact ⟨q, rfl, h.univariate, fun x => derivAt_constant (h.constant hd) _ _⟩
  · obtain ⟨cs, hc, hv⟩ := h.coefficients
    rw [hc]
    refine ⟨_, rfl, rfl, fun x => ?_⟩
    rw [derivAt_ofCoefficients, ← hv]
    have := powerSeries_mapIdx s hs.ne' x cs 0
    simpa [scaleCoefficients] using this

theorem substitute_keeps {r : Polynomial R} (hq : InVariable v q) (hr : r.isUnivariate = true ∧ InVariable v r) :
    (substitute q v r).isUnivariate = true ∧ InVariable v (substitute q v r) := by
  unfold substitute
  suffices H : ∀ (ms : List (Monomial R)) (acc : Polynomial R), (∀ m ∈ ms, m.terms = [] ∨ ∃ k, m.terms = [⟨v, k⟩]) →
      (acc.isUnivariate = true ∧ InVariable v acc) →
      (ms.foldl (init := acc) fun acc m =>
        if m.hasVariable v then (m.terms.foldl (substituteTerm v r) (const m.coefficient, acc)).2
        else add acc (ofTerms m.coefficient m.terms)).isUnivariate = true ∧ InVariable v (ms.foldl (init := acc) fun acc m =>
        if m.hasVariable v then (m.terms.foldl (substituteTerm v r) (const m.coefficient, acc)).2
        else add acc (ofTerms m.coefficient m.terms)) from
    H _ _ hq ⟨rfl, by simp [Poly.zero, InVariable]⟩
  intro ms
  induction ms with
  | nil => intro acc _ h; exact h
  | cons m ms ih =>
    intro acc hm hacc
    rw [List.foldl_cons]
    refine ih _ (fun n hn => hm n (by simp [hn])) ?_
    have add_keeps : ∀ b : Polynomial R, InVariable v b → (add acc b).isUnivariate = true ∧ InVariable v (add acc b) :=
      fun b hb => makeUnique_keeps v _ (fun m hm => (List.mem_append.1 hm).elim (hacc.2 m) (hb m)) hacc.1
    rcases hm m (by simp) with e | ⟨k, e⟩
    · rw [if_neg (by simp [Monomial.hasVariable, e])]
      refine add_keeps _ ?_
      rw [e]
      simp [ofTerms, InVariable]
    · rw [if_pos (by simp [Monomial.hasVariable, e]), e]
      simp only [List.foldl_cons, List.foldl_nil, substituteTerm, if_true]
      exact add_keeps _ (mul_keeps ⟨rfl, by simp [const, InVariable]⟩ (pow_keeps hr k).2).2

theorem onlyVar_ok (h : InOne v q) (hd : getDegree q ≠ 0) : onlyVar q = .ok v := by
  unfold onlyVar
  cases ht : q.monomials.flatMap Monomial.terms with
  | nil =>
    exfalso
    apply hd
    have hall : ∀ m ∈ q.monomials, m.terms = [] := List.flatMap_eq_nil_iff.1 ht
    unfold getDegree
    have : ∀ (ms : List (Monomial R)), (∀ m ∈ ms, m.terms = []) → 
        ms.foldl (fun d m => if d < m.getDegree then m.getDegree else d) 0 = 0 := by
      intro ms
      induction ms with
      | nil => intro _; rfl
      | cons m ms ih =>
        intro hm
        rw [List.foldl_cons, show m.getDegree = 0 by simp [Monomial.getDegree, hm m (by simp)]]
        simpa using ih fun n hn => hm n (by simp [hn])
    exact this _ hall
  | cons t ts =>
    have : t ∈ q.monomials.flatMap Monomial.terms := by rw [ht]; simp
    obtain ⟨m, hm, htm⟩ := List.mem_flatMap.1 this
    rcases h.inVariable m hm with e | ⟨k, e⟩
    · rw [e] at htm; simp at htm
    · rw [e] at htm; simp at htm; rw [htm]

theorem reversePiece_spec (d : R) (h : InOne v q) : ∃ r, reversePiece d q = .ok r ∧ r.isUnivariate = true ∧
    ∀ x : R, derivAt 0 (d - x) r.monomials = derivAt 0 x q.monomials := by
  unfold reversePiece
  split
  · rename_i hd
    exact ⟨q, rfl, h.univariate, fun x => derivAt_constant (h.constant hd) _ _⟩
  · rename_i hd
    rw [onlyVar_ok h hd]
    have hk : (scalarSub d (ofVar (1 : R) v)).isUnivariate = true ∧ InVariable v (scalarSub d (ofVar (1 : R) v)) := by
      simp [scalarSub, addScalar, neg, ofVar, InVariable]
    have hv : ∀ x : Nat → R, valueAt x (scalarSub d (ofVar (1 : R) v)).monomials = d - x v := by
      intro x
      simp [scalarSub, addScalar, neg, ofVar, valueAt, Poly.Spec.monomialAt]; ring
    have hg : Good (scalarSub d (ofVar (1 : R) v)).monomials := by
      intro m hm
      rcases hk.2 m hm with e | ⟨k, e⟩ <;> rw [e] <;> simp
    have hs := substitute_keeps h.inVariable hk
    refine ⟨_, rfl, hs.1, fun x => ?_⟩
    have ha : Alone v q := by
      intro m hm hv
      rcases h.inVariable m hm with e | ⟨k, e⟩
      · simp [Monomial.hasVariable, e] at hv
      · exact ⟨k, e⟩
    have := (substitute_spec (fun _ => d - x) h.good hg ha).1
    rw [derivAt_zero_eq hs.2 (fun _ => d - x), this, hv, ← derivAt_zero_eq h.inVariable]
    simp
end

theorem reversePieces_spec {v : Nat} : ∀ (bs : List R) (qs : List (Polynomial R)) (hl : bs.length = qs.length + 1),
    (∀ q ∈ qs, InOne v q) → ∃ rs, reversePieces bs qs = .ok rs ∧ ∃ (hr : rs.length = qs.length),
      (∀ r ∈ rs, r.isUnivariate = true) ∧ ∀ i (hi : i < qs.length) (x : R),
        derivAt 0 (bs[i + 1]'(by omega) - bs[i]'(by omega) - x) (rs[i]'(by omega)).monomials = derivAt 0 x qs[i].monomials
  | [_], [], hl, h => ⟨[], rfl, rfl, by simp, fun i hi => by simp at hi⟩
  | [], _, hl, h => by simp at hl
  | _ :: _ :: _, [], hl, h => by simp at hl
  | [_], _ :: _, hl, h => by simp at hl
  | b0 :: b1 :: bs, q :: qs, hl, h => by
    obtain ⟨rs, h1, h2, h3, h4⟩ := reversePieces_spec (b1 :: bs) qs (by simpa using hl) fun q hq => h q (by simp [hq])
    obtain ⟨r, g1, g2, g3⟩ := reversePiece_spec (b1 - b0) (h q (by simp))
    refine ⟨r :: rs, ?_, by simp [h2], ?_, ?_⟩
    · unfold reversePieces; rw [g1, h1]; rfl
    · intro s hs
      rcases List.mem_cons.1 hs with rfl | hs
      · exact g2
      · exact h3 s hs
    · intro i hi x
      cases i with
      | zero => exact g3 x
      | succ i => exact h4 i (by simpa using hi) x

/-! Integrals. -/

theorem integralPieces_spec {v : Nat} : ∀ (bs : List R) (qs : List (Polynomial R)) (c : R) (rs : List (Polynomial R)),
    bs.length = qs.length + 1 → (∀ q ∈ qs, InVariable v q) → integralPieces bs qs c = .ok rs →
    List.Forall₂ (fun r q => ∀ x : R, derivAt 1 x r.monomials = derivAt 0 x q.monomials) rs qs ∧
    (∀ r ∈ rs, r.isUnivariate = true) ∧ (∀ r rs', rs = r :: rs' → derivAt 0 0 r.monomials = c) ∧
    ∀ i (hi : i + 1 < rs.length) (hb : i + 1 < bs.length),
      derivAt 0 (bs[i + 1] - bs[i]) rs[i].monomials = derivAt 0 0 rs[i + 1].monomials
  | [], _, _, _, hl, _, _ => by simp at hl
  | [_], qs, c, rs, hl, _, h => by
    have : qs = [] := by simpa using hl
    subst this
    have : rs = [] := by simpa [integralPieces, pure, Except.pure] using h.symm
    subst this
    exact ⟨.nil, by simp, by simp, by simp⟩
  | b0 :: b1 :: bs, [], c, rs, hl, _, h => by simp at hl
  | b0 :: b1 :: bs, q :: qs, c, rs, hl, hq, h => by
    unfold integralPieces at h
    obtain ⟨i, hi, h⟩ := bind_ok.1 h
    obtain ⟨nx, hn, h⟩ := bind_ok.1 h
    obtain ⟨rs', hr, h⟩ := bind_ok.1 h
    have : rs = i :: rs' := by simpa [pure, Except.pure] using h.symm
    subst this
    obtain ⟨s1, s2, s3, s4⟩ := integral_spec (hq q (by simp)) hi
    obtain ⟨t1, t2, t3, t4⟩ := integralPieces_spec (b1 :: bs) qs nx rs' (by simpa using hl) (fun q h => hq q (by simp [h])) hr
    refine ⟨.cons s3 t1, ?_, ?_, ?_⟩
    · intro r hr
      rcases List.mem_cons.1 hr with rfl | hr
      · exact s1
      · exact t2 r hr
    · rintro r rs'' ⟨⟩; exact s4
    · intro k hk hb
      cases k with
      | zero =>
        match rs', hk with
        | r' :: rs'', _ =>
          have hne : qs ≠ [] := by
            intro e; subst e; cases t1
          rw [if_neg hne, evaluateUnivariate_ok _ _ _ s1] at hn
          have := t3 r' rs'' rfl
          simp only [Except.ok.injEq] at hn
          simpa [this] using hn
      | succ k => exact t4 k (by simpa using hk) (by simpa using hb)

theorem mapM_derivative {v : Nat} (n : Nat) (hn : n ≠ 0) : ∀ (qs : List (Polynomial R)),
    (∀ q ∈ qs, q.isUnivariate = true ∧ InVariable v q) → ∃ rs, qs.mapM (fun q => Poly.derivative q n) = .ok rs ∧
      (∀ r ∈ rs, r.isUnivariate = true) ∧
      ∀ k, List.Forall₂ (fun r q => ∀ x : R, derivAt k x r.monomials = derivAt (n + k) x q.monomials) rs qs
  | [], _ => ⟨[], rfl, by simp, fun _ => .nil⟩
  | q :: qs, h => by
    obtain ⟨rs, h1, h2, h3⟩ := mapM_derivative n hn qs fun q hq => h q (by simp [hq])
    obtain ⟨u, i⟩ := h q (by simp)
    refine ⟨⟨q.monomials.filterMap (derivativeMonomial n), true⟩ :: rs, ?_, ?_, fun k => .cons (fun x => ?_) (h3 k)⟩
    · rw [List.mapM_cons, h1]
      unfold Poly.derivative
      rw [if_pos u, if_neg hn]; rfl
    · intro r hr
      rcases List.mem_cons.1 hr with rfl | hr
      · rfl
      · exact h2 r hr
    · exact derivAt_derivative n k hn x i

theorem mapM_scale {v : Nat} {s : R} (hs : 0 < s) : ∀ (qs : List (Polynomial R)), (∀ q ∈ qs, InOne v q) →
    ∃ rs, qs.mapM (scalePiece s) = .ok rs ∧ (∀ r ∈ rs, r.isUnivariate = true) ∧
      List.Forall₂ (fun q r => ∀ x : R, derivAt 0 (x * s) r.monomials = derivAt 0 x q.monomials) qs rs
  | [], _ => ⟨[], rfl, by simp, .nil⟩
  | q :: qs, h => by
    obtain ⟨rs, h1, h2, h3⟩ := mapM_scale hs qs fun q hq => h q (by simp [hq])
    obtain ⟨r, g1, g2, g3⟩ := scalePiece_spec hs (h q (by simp))
    refine ⟨r :: rs, ?_, ?_, .cons g3 h3⟩
    · rw [List.mapM_cons, h1, g1]; rfl
    · intro r hr
      rcases List.mem_cons.1 hr with rfl | hr
      · exact g2
      · exact h2 r hr

/-! Valid piecewise polynomials with the same breaks. -/

theorem Spec.Valid.of_polynomials {p : PP R} (hv : Valid p) {qs : List (Polynomial R)} (hl : qs.length = p.polynomials.length)
    (hu : ∀ q ∈ qs, q.isUnivariate = true) : Valid ⟨p.breaks, qs⟩ :=
  ⟨by rw [hl]; exact hv.lengths, by rw [hl]; exact hv.segments, hv.increasing, hu⟩

end Maliput.Piecewise
