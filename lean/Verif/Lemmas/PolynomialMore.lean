import Verif.Lemmas.PolynomialCalculus

set_option autoImplicit false
set_option linter.unusedSectionVars false

namespace Maliput.Poly
open Spec

variable {R : Type} [Field R] [DecidableEq R]

theorem derivAt_cons (n : Nat) (x : R) (m : Monomial R) (ms : List (Monomial R)) : derivAt n x (m :: ms) =
    m.coefficient * (m.firstPower.descFactorial n : R) * x ^ (m.firstPower - n) + derivAt n x ms := by
  simp [derivAt]

theorem derivAt_append (n : Nat) (x : R) (a b : List (Monomial R)) :
    derivAt n x (a ++ b) = derivAt n x a + derivAt n x b := by simp [derivAt]

/-! The integral. -/

theorem integralMonomial_spec [CharZero R] {v w : Nat} {m m' : Monomial R} (x : R)
    (hm : m.terms = [] ∨ ∃ k, m.terms = [⟨v, k⟩]) (hw : m.terms = [] → w = v)
    (h : integralMonomial w m = .ok m') :
    m'.coefficient * (m'.firstPower.descFactorial 1 : R) * x ^ (m'.firstPower - 1) =
      m.coefficient * (m.firstPower.descFactorial 0 : R) * x ^ (m.firstPower - 0) ∧ 0 < m'.firstPower ∧
      ∃ k, m'.terms = [⟨v, k⟩] := by
  rcases hm with e | ⟨k, e⟩
  · rw [integralMonomial, e] at h
    dsimp only at h
    split at h
    · cases h
    · cases h
      rw [hw e]
      simp [Monomial.firstPower, e]
  · rw [integralMonomial, e] at h
    cases h
    refine ⟨?_, by simp [Monomial.firstPower], k + 1, rfl⟩
    have hk : ((k + 1 : Nat) : R) ≠ 0 := by exact_mod_cast Nat.succ_ne_zero k
    simp only [Monomial.firstPower, e, Nat.descFactorial_one, Nat.descFactorial_zero, Nat.cast_one, mul_one,
      Nat.add_sub_cancel, Nat.sub_zero]
    rw [div_mul_cancel₀ _ hk]

theorem firstVar_eq {v : Nat} : ∀ (ms : List (Monomial R)),
    (∀ m ∈ ms, m.terms = [] ∨ ∃ k, m.terms = [⟨v, k⟩]) → firstVar ms = v ∨
      firstVar ms = 0 ∧ ∀ m ∈ ms, m.terms = [] := by
  intro ms
  induction ms with
  | nil => intro _; exact .inr ⟨rfl, by simp⟩
  | cons m ms ih =>
    intro h
    rcases h m (by simp) with e | ⟨k, e⟩
    · rcases ih fun n hn => h n (by simp [hn]) with h' | ⟨h1, h2⟩
      · left; rw [firstVar, e]; exact h'
      · right; rw [firstVar, e]
        exact ⟨h1, by simpa using ⟨e, h2⟩⟩
    · left; rw [firstVar, e]

theorem integral_spec [CharZero R] {v : Nat} {p q : Polynomial R} {c : R} (hp : InVariable v p)
    (h : integral p c = .ok q) : q.isUnivariate = true ∧ (∃ w, InVariable w q) ∧
      (∀ x, derivAt 1 x q.monomials = derivAt 0 x p.monomials) ∧ derivAt 0 0 q.monomials = c := by
  unfold integral at h
  split at h
  · obtain ⟨ms, hms, h⟩ := bind_ok.1 h
    cases h
    have hfor := mapM_ok hms
    dsimp only
    have main : ∀ (w u : Nat) (l l' : List (Monomial R)), (∀ m ∈ l, m.terms = [] ∨ ∃ k, m.terms = [⟨u, k⟩]) →
        ((∃ m ∈ l, m.terms = []) → w = u) →
        List.Forall₂ (fun a b => integralMonomial w a = .ok b) l l' →
        (∀ x, derivAt 1 x l' = derivAt 0 x l) ∧ derivAt 0 0 l' = 0 ∧
          ∀ m ∈ l', ∃ k, m.terms = [⟨u, k⟩] := by
      intro w u l l' hl hw hf
      induction hf with
      | nil => exact ⟨fun _ => rfl, rfl, by simp⟩
      | @cons a b l l' hab _ ih =>
        obtain ⟨i1, i2, i3⟩ := ih (fun m hm => hl m (by simp [hm])) (fun ⟨m, hm, e⟩ => hw ⟨m, by simp [hm], e⟩)
        have hs := fun x => integralMonomial_spec x (hl a (by simp)) (fun e => hw ⟨a, by simp, e⟩) hab
        refine ⟨fun x => by rw [derivAt_cons, derivAt_cons, i1, (hs x).1], ?_, ?_⟩
        · rw [derivAt_cons, i2, Nat.sub_zero, zero_pow (by have := (hs 0).2.1; omega)]; simp
        · intro m hm
          rcases List.mem_cons.1 hm with rfl | hm
          · exact (hs 0).2.2
          · exact i3 m hm
    have hfirst := firstVar_eq p.monomials hp
    have hconst : derivAt 1 (0 : R) [⟨c, []⟩] = 0 := by simp [derivAt, Monomial.firstPower]
    have fin : ∀ u, (∀ m ∈ p.monomials, m.terms = [] ∨ ∃ k, m.terms = [⟨u, k⟩]) →
        ((∃ m ∈ p.monomials, m.terms = []) → firstVar p.monomials = u) →
        True ∧ (∃ w, InVariable w (⟨ms ++ [⟨c, []⟩], true⟩ : Polynomial R)) ∧
        (∀ x, derivAt 1 x (ms ++ [⟨c, []⟩]) = derivAt 0 x p.monomials) ∧ derivAt 0 0 (ms ++ [⟨c, []⟩]) = c := by
      intro u hu hw
      obtain ⟨i1, i2, i3⟩ := main (firstVar p.monomials) u _ _ hu hw hfor
      refine ⟨trivial, ⟨u, ?_⟩, fun x => ?_, ?_⟩
      · intro m hm
        rcases List.mem_append.1 hm with hm | hm
        · exact .inr (i3 m hm)
        · simp at hm; subst hm; exact .inl rfl
      · rw [derivAt_append, i1]; simp [derivAt, Monomial.firstPower]
      · rw [derivAt_append, i2]; simp [derivAt, Monomial.firstPower]
    refine ⟨rfl, (?_ : True ∧ _).2⟩
    rcases hfirst with hf | ⟨hf, hall⟩
    · exact fin v hp fun _ => hf
    · exact fin 0 (fun m hm => .inl (hall m hm)) fun _ => hf
  · cases h

/-! Coefficients. -/

theorem powerSeries_replicate (x : R) (n : Nat) : powerSeries x (List.replicate n (0 : R)) = 0 := by
  induction n with
  | zero => rfl
  | succ n ih => simp [List.replicate_succ, powerSeries, ih]

theorem powerSeries_set (x c : R) : ∀ (cs : List R) (k : Nat), cs[k]? = some 0 →
    powerSeries x (cs.set k c) = powerSeries x cs + c * x ^ k := by
  intro cs
  induction cs with
  | nil => intro k h; simp at h
  | cons a cs ih =>
    intro k h
    cases k with
    | zero => simp at h; subst h; simp [powerSeries]; ring
    | succ k =>
      simp at h
      simp only [List.set_cons_succ, powerSeries]
      rw [ih k h]; ring

theorem coefficients_loop (x : R) : ∀ (ms : List (Monomial R)) (cs : List R),
    (ms.Pairwise fun m n => m.firstPower ≠ n.firstPower) → (∀ m ∈ ms, cs[m.firstPower]? = some 0) →
    powerSeries x (ms.foldl (fun cs m => cs.set m.firstPower m.coefficient) cs) = powerSeries x cs + derivAt 0 x ms := by
  intro ms
  induction ms with
  | nil => intro cs _ _; simp [derivAt]
  | cons m ms ih =>
    intro cs hp hz
    obtain ⟨h1, h2⟩ := List.pairwise_cons.1 hp
    rw [List.foldl_cons, ih _ h2, powerSeries_set x _ _ _ (hz m (by simp)), derivAt_cons]
    · simp; ring
    · intro n hn
      rw [List.getElem?_set_ne (h1 n hn)]
      exact hz n (by simp [hn])

theorem getDegree_le (p : Polynomial R) {m : Monomial R} (h : m ∈ p.monomials) : m.getDegree ≤ getDegree p := by
  unfold getDegree
  obtain ⟨ms, u⟩ := p
  dsimp only at h ⊢
  have mono : ∀ (l : List (Monomial R)) (d : Nat), d ≤ l.foldl (fun d m => if d < m.getDegree then m.getDegree else d) d := by
    intro l
    induction l with
    | nil => intro d; simp
    | cons a l ih =>
      intro d
      rw [List.foldl_cons]
      refine le_trans ?_ (ih _)
      split <;> omega
  generalize 0 = d
  induction ms generalizing d with
  | nil => cases h
  | cons a ms ih =>
    rw [List.foldl_cons]
    rcases List.mem_cons.1 h with rfl | h
    · refine le_trans ?_ (mono ms _)
      split <;> omega
    · exact ih h _

theorem firstPower_eq_getDegree {v : Nat} {m : Monomial R} (hm : m.terms = [] ∨ ∃ k, m.terms = [⟨v, k⟩]) :
    m.firstPower = m.getDegree := by
  rcases hm with e | ⟨k, e⟩ <;> simp [Monomial.firstPower, Monomial.getDegree, e]

theorem distinct_powers {v : Nat} {p : Polynomial R} (hp : InVariable v p) (hc : Canonical p)
    (hpos : PositivePowers p) : p.monomials.Pairwise fun m n => m.firstPower ≠ n.firstPower := by
  refine List.Pairwise.imp_of_mem ?_ hc.2
  intro m n hm hn hne he
  apply hne
  rcases hp m hm with e | ⟨k, e⟩ <;> rcases hp n hn with e' | ⟨k', e'⟩ <;>
    simp only [Monomial.firstPower, e, e'] at he
  · simp [SameExponents, e, e']
  · have := hpos n hn ⟨v, k'⟩ (by simp [e']); dsimp only at this; omega
  · have := hpos m hm ⟨v, k⟩ (by simp [e]); dsimp only at this; omega
  · simp [SameExponents, e, e', he]

theorem getCoefficients_spec {v : Nat} {p : Polynomial R} (hu : p.isUnivariate = true) (hp : InVariable v p)
    (hc : Canonical p) (hpos : PositivePowers p) : ∃ cs, getCoefficients p = .ok cs ∧ cs.length = getDegree p + 1 ∧
      (∀ x, powerSeries x cs = derivAt 0 x p.monomials) := by
  unfold getCoefficients
  rw [if_pos hu]
  refine ⟨_, rfl, ?_, fun x => ?_⟩
  · have : ∀ (ms : List (Monomial R)) (cs : List R),
        (ms.foldl (fun cs m => cs.set m.firstPower m.coefficient) cs).length = cs.length := by
      intro ms
      induction ms with
      | nil => intro; rfl
      | cons m ms ih => intro cs; rw [List.foldl_cons, ih]; simp
    rw [this]; simp
  · rw [coefficients_loop x _ _ (distinct_powers hp hc hpos), powerSeries_replicate, zero_add]
    intro m hm
    have := getDegree_le p hm
    rw [← firstPower_eq_getDegree (hp m hm)] at this
    rw [List.getElem?_replicate, if_pos (by omega)]

/-! Substitution. -/

theorem ctorRound_value (x : Nat → R) (acc : List Term × Bool) (i : Nat) :
    powersAt x (ctorRound acc i).1 = powersAt x acc.1 ∧ ∀ t ∈ (ctorRound acc i).1, ∃ u ∈ acc.1, u.var = t.var := by
  unfold ctorRound
  split
  · rename_i ti t0 hi h0
    dsimp only
    split
    · rename_i j hj
      obtain ⟨hji, tj, htj, hv⟩ := take_findIdx hj
      have hv : tj.var = ti.var := by simpa using (beq_iff_eq.1 hv).symm
      have hi' : (acc.1.modify j fun tj => (⟨tj.var, tj.power + ti.power⟩ : Term))[i]? = some ti := by
        rw [List.getElem?_modify, hi]
        simp only [Option.map_eq_map, Option.map_some, if_neg (show ¬ j = i by omega)]
      refine ⟨?_, ?_⟩
      · dsimp only
        have h1 := powersAt_modify x ti.power ti.var acc.1 j tj htj hv
        -- erase the term `ti` by comparing the products
        have herase : ∀ (l : List Term) (i : Nat) (t : Term), l[i]? = some t →
            powersAt x l = powersAt x (l.eraseIdx i) * x t.var ^ t.power := by
          intro l
          induction l with
          | nil => intro i t h; simp at h
          | cons a l ih =>
            intro i t h
            cases i with
            | zero => simp at h; subst h; simp [powersAt]; ring
            | succ i =>
              simp at h
              have := ih i t h
              simp only [powersAt, List.eraseIdx_cons_succ, List.map_cons, List.prod_cons] at this ⊢
              rw [this]; ring
        have hcomm : (acc.1.modify j fun tj => (⟨tj.var, tj.power + ti.power⟩ : Term)).eraseIdx i =
            (acc.1.eraseIdx i).modify j fun tj => (⟨tj.var, tj.power + ti.power⟩ : Term) := by
          clear h1 hi hi' htj h0 hj
          generalize acc.1 = l
          induction l generalizing i j with
          | nil => simp
          | cons a l ih =>
            cases i with
            | zero => omega
            | succ i => cases j with
              | zero => simp
              | succ j => simpa using ih i j (by omega)
        have htj' : (acc.1.eraseIdx i)[j]? = some tj := by
          rw [List.getElem?_eraseIdx_of_lt (by omega)]; exact htj
        rw [hcomm, powersAt_modify x ti.power ti.var _ j tj htj' hv, herase acc.1 i ti hi]
      · intro t ht
        rcases mem_modify (List.mem_of_mem_eraseIdx ht) with h | ⟨b, hb, rfl⟩
        · exact ⟨t, h, rfl⟩
        · exact ⟨b, hb, rfl⟩
    · exact ⟨rfl, fun t ht => ⟨t, ht, rfl⟩⟩
  · exact ⟨rfl, fun t ht => ⟨t, ht, rfl⟩⟩

theorem ofTerms_value (x : Nat → R) (c : R) (ts : List Term) :
    valueAt x (ofTerms c ts).monomials = c * powersAt x ts := by
  unfold ofTerms
  have : ∀ (is : List Nat) (acc : List Term × Bool), powersAt x (is.foldl ctorRound acc).1 = powersAt x acc.1 := by
    intro is
    induction is with
    | nil => intro; rfl
    | cons i is ih => intro acc; rw [List.foldl_cons, ih, (ctorRound_value x acc i).1]
  simp only [valueAt, List.map_cons, List.map_nil, List.sum_cons, List.sum_nil, add_zero, monomialAt]
  rw [← powersAt, this]

theorem ofTerms_mentions (c : R) (ts : List Term) {v : Nat} (h : Mentions (ofTerms c ts) v) : ∃ t ∈ ts, t.var = v := by
  have : ∀ (is : List Nat) (acc : List Term × Bool), ∀ t ∈ (is.foldl ctorRound acc).1, ∃ u ∈ acc.1, u.var = t.var := by
    intro is
    induction is with
    | nil => intro acc t ht; exact ⟨t, ht, rfl⟩
    | cons i is ih =>
      intro acc t ht
      obtain ⟨u, hu, e⟩ := ih _ t ht
      obtain ⟨w, hw, e'⟩ := (ctorRound_value (fun _ => (0 : R)) acc i).2 u hu
      exact ⟨w, hw, e'.trans e⟩
  obtain ⟨m, hm, t, ht, rfl⟩ := h
  rw [show m = _ from List.mem_singleton.1 hm] at ht
  exact this _ _ t ht

theorem ofTerms_good (c : R) {ts : List Term} (h : (ts.map Term.var).Nodup) : (ofTerms c ts).monomials = [⟨c, ts⟩] := by
  unfold ofTerms
  have : ∀ (is : List Nat) (u : Bool), (is.foldl ctorRound (ts, u)).1 = ts := by
    intro is
    induction is with
    | nil => intro; rfl
    | cons i is ih =>
      intro u
      rw [List.foldl_cons]
      have : ∃ u', ctorRound (ts, u) i = (ts, u') := by
        unfold ctorRound
        split
        · rename_i ti t0 hi h0
          dsimp only
          split
          · rename_i j hj
            obtain ⟨hji, tj, htj, hv⟩ := take_findIdx hj
            exfalso
            have hv : ti.var = tj.var := by simpa using hv
            obtain ⟨hi1, hi2⟩ := List.getElem?_eq_some_iff.1 hi
            obtain ⟨hj1, hj2⟩ := List.getElem?_eq_some_iff.1 htj
            dsimp only at hi1 hj1 hi2 hj2
            have := (List.nodup_iff_injective_get.1 h) (a₁ := ⟨i, by simpa using hi1⟩) (a₂ := ⟨j, by simpa using hj1⟩)
              (by simp [hi2, hj2, hv])
            simp at this; omega
          · exact ⟨_, rfl⟩
        · exact ⟨_, rfl⟩
      obtain ⟨u', e⟩ := this
      rw [e, ih]
  dsimp only
  rw [this]

/-- The variable stands alone in the monomials that have it. -/
def Alone (orig : Nat) (p : Polynomial R) : Prop :=
  ∀ m ∈ p.monomials, m.hasVariable orig = true → ∃ k, m.terms = [⟨orig, k⟩]

theorem substitute_spec (x : Nat → R) {orig : Nat} {p q : Polynomial R} (hp : Good p.monomials)
    (hq : Good q.monomials) (ha : Alone orig p) :
    valueAt x (substitute p orig q).monomials =
      valueAt (fun v => if v = orig then valueAt x q.monomials else x v) p.monomials ∧
      Good (substitute p orig q).monomials := by
  obtain ⟨ms, u⟩ := p
  unfold substitute
  dsimp only
  suffices h : ∀ (acc : Polynomial R), Good acc.monomials → (ms.foldl (init := acc) fun acc m =>
      if m.hasVariable orig then (m.terms.foldl (substituteTerm orig q) (const m.coefficient, acc)).2
      else add acc (ofTerms m.coefficient m.terms)) = (ms.foldl (init := acc) fun acc m =>
      if m.hasVariable orig then (m.terms.foldl (substituteTerm orig q) (const m.coefficient, acc)).2
      else add acc (ofTerms m.coefficient m.terms)) ∧
      valueAt x (ms.foldl (init := acc) fun acc m =>
      if m.hasVariable orig then (m.terms.foldl (substituteTerm orig q) (const m.coefficient, acc)).2
      else add acc (ofTerms m.coefficient m.terms)).monomials = valueAt x acc.monomials +
        valueAt (fun v => if v = orig then valueAt x q.monomials else x v) ms ∧
      Good (ms.foldl (init := acc) fun acc m =>
      if m.hasVariable orig then (m.terms.foldl (substituteTerm orig q) (const m.coefficient, acc)).2
      else add acc (ofTerms m.coefficient m.terms)).monomials by
    obtain ⟨-, h1, h2⟩ := h zero (by simp [zero, Good])
    refine ⟨?_, h2⟩
    rw [h1]; simp [zero, valueAt]
  induction ms with
  | nil => intro acc h; exact ⟨rfl, by simp [valueAt], h⟩
  | cons m ms ih =>
    intro acc hacc
    have ih := ih (fun n hn => hp n (by simp [show n ∈ ms from hn])) (fun n hn => ha n (by simp [show n ∈ ms from hn]))
    refine ⟨rfl, ?_⟩
    rw [List.foldl_cons]
    by_cases hv : m.hasVariable orig = true
    · obtain ⟨k, e⟩ := ha m (by simp) hv
      have hgc : Good (const m.coefficient : Polynomial R).monomials := by simp [const, Good]
      have hstep : (if m.hasVariable orig = true then (m.terms.foldl (substituteTerm orig q) (const m.coefficient, acc)).2
          else add acc (ofTerms m.coefficient m.terms)) = add acc (mul (const m.coefficient) (pow q k)) := by
        rw [if_pos hv, e]; simp [substituteTerm]
      rw [hstep]
      have hgm : Good (mul (const m.coefficient) (pow q k)).monomials := mul_good hgc
      obtain ⟨-, h1, h2⟩ := ih _ (add_good hacc hgm)
      refine ⟨?_, h2⟩
      rw [h1, add_value x hacc hgm, mul_value x hgc, pow_value x hq]
      simp only [valueAt, List.map_cons, List.sum_cons, monomialAt, e, const, List.map_nil, List.prod_nil, List.sum_nil,
        List.prod_cons, if_true]
      ring
    · have hgt : Good (ofTerms m.coefficient m.terms).monomials := by
        rw [ofTerms_good _ (hp m (by simp))]
        intro n hn
        simp at hn; subst hn; exact hp m (by simp)
      have hstep : (if m.hasVariable orig = true then (m.terms.foldl (substituteTerm orig q) (const m.coefficient, acc)).2
          else add acc (ofTerms m.coefficient m.terms)) = add acc (ofTerms m.coefficient m.terms) := if_neg hv
      rw [hstep]
      obtain ⟨-, h1, h2⟩ := ih _ (add_good hacc hgt)
      refine ⟨?_, h2⟩
      rw [h1, add_value x hacc hgt, ofTerms_value]
      simp only [valueAt, List.map_cons, List.sum_cons, monomialAt, powersAt]
      rw [show (m.terms.map fun t => (if t.var = orig then (q.monomials.map (monomialAt x)).sum else x t.var) ^ t.power) =
        m.terms.map fun t => x t.var ^ t.power from List.map_congr_left fun t ht => by
          rw [if_neg]
          rintro rfl
          apply hv
          simp only [Monomial.hasVariable, List.any_eq_true, beq_iff_eq]
          exact ⟨t, ht, rfl⟩]
      ring

end Maliput.Poly
