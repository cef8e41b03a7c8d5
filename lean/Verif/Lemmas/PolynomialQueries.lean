import Mathlib.Algebra.MvPolynomial.Funext
import Mathlib.Algebra.CharZero.Infinite
import Mathlib.Algebra.Order.BigOperators.Group.List
import Mathlib.Tactic.Linarith
import Verif.Lemmas.Polynomial
import Verif.Spec.PolynomialQueries

set_option autoImplicit false
set_option linter.unusedSectionVars false

/-! Lemmas about the queries and comparisons of polynomials. -/
namespace Maliput.Poly
open Spec

section
variable {R : Type} [Field R] [DecidableEq R]

theorem exponent_cons (t : Term) (ts : List Term) (v : Nat) :
    exponent (t :: ts) v = (if t.var = v then t.power else 0) + exponent ts v := by
  unfold exponent
  by_cases h : t.var = v <;> simp [h]

theorem exponent_absent {ts : List Term} {v : Nat} (h : v ∉ ts.map Term.var) : exponent ts v = 0 := by
  induction ts with
  | nil => rfl
  | cons t ts ih =>
    simp only [List.map_cons, List.mem_cons, not_or] at h
    rw [exponent_cons, if_neg (fun e => h.1 e.symm), ih h.2]

theorem exponent_mem {ts : List Term} (hn : (ts.map Term.var).Nodup) {t : Term} (ht : t ∈ ts) :
    exponent ts t.var = t.power := by
  induction ts with
  | nil => cases ht
  | cons u us ih =>
    simp only [List.map_cons, List.nodup_cons] at hn
    rw [exponent_cons]
    rcases List.mem_cons.1 ht with rfl | ht
    · rw [if_pos rfl, exponent_absent hn.1, Nat.add_zero]
    · have : u.var ≠ t.var := fun e => hn.1 (e ▸ List.mem_map_of_mem ht)
      rw [if_neg this, ih hn.2 ht, Nat.zero_add]

theorem exponent_append (ts us : List Term) (v : Nat) : exponent (ts ++ us) v = exponent ts v + exponent us v := by
  induction ts with
  | nil => simp [exponent]
  | cons t ts ih => rw [List.cons_append, exponent_cons, ih, exponent_cons, Nat.add_assoc]

theorem getDegreeOf_eq {m : Monomial R} (hn : (m.terms.map Term.var).Nodup) (v : Nat) :
    m.getDegreeOf v = exponent m.terms v := by
  unfold Monomial.getDegreeOf
  cases h : m.terms.find? fun t => t.var == v with
  | none =>
    rw [exponent_absent]
    intro hv
    obtain ⟨t, ht, rfl⟩ := List.mem_map.1 hv
    have := List.find?_eq_none.1 h t ht
    simp at this
  | some t =>
    have h1 := List.find?_some h
    have h2 := List.mem_of_find?_eq_some h
    simp only [beq_iff_eq] at h1
    rw [← h1, exponent_mem hn h2]

/-! Division of monomials. -/

theorem factorTerms_none (d : Monomial R) : ∀ (ts acc : List Term),
    ts.foldlM (factorTerm d) acc = none ↔ ∃ t ∈ ts, t.power < d.getDegreeOf t.var
  | [], acc => by simp
  | t :: ts, acc => by
    rw [List.foldlM_cons]
    unfold factorTerm
    dsimp only
    by_cases h : t.power < d.getDegreeOf t.var
    · rw [if_pos h]
      simp [h]
    · rw [if_neg h]
      show ts.foldlM (factorTerm d) _ = none ↔ _
      rw [factorTerms_none d ts]
      simp [h]

theorem factorTerms_some (d : Monomial R) : ∀ (ts acc us : List Term), (ts.map Term.var).Nodup →
    ts.foldlM (factorTerm d) acc = some us → ∀ v, exponent us v =
      exponent acc v + (if v ∈ ts.map Term.var then exponent ts v - d.getDegreeOf v else 0)
  | [], acc, us, _, h, v => by
    have : acc = us := by simpa using h
    simp [this]
  | t :: ts, acc, us, hn, h, v => by
    simp only [List.map_cons, List.nodup_cons] at hn
    rw [List.foldlM_cons] at h
    unfold factorTerm at h
    dsimp only at h
    by_cases hp : t.power < d.getDegreeOf t.var
    · rw [if_pos hp] at h; cases h
    · rw [if_neg hp] at h
      replace h : ts.foldlM (factorTerm d) _ = some us := h
      rw [factorTerms_some d ts _ us hn.2 h v, exponent_cons]
      have e : exponent (if t.power - d.getDegreeOf t.var > 0 then acc ++ [⟨t.var, t.power - d.getDegreeOf t.var⟩] else acc) v =
          exponent acc v + if t.var = v then t.power - d.getDegreeOf t.var else 0 := by
        by_cases h0 : t.power - d.getDegreeOf t.var > 0
        · rw [if_pos h0, exponent_append, exponent_cons]; simp [exponent]
        · rw [if_neg h0]
          have : t.power - d.getDegreeOf t.var = 0 := by omega
          rw [this]; simp
      rw [e]
      by_cases hv : t.var = v
      · subst hv
        have h1 : t.var ∉ ts.map Term.var := hn.1
        rw [if_pos rfl, if_neg h1, if_pos rfl, if_pos (show t.var ∈ (t :: ts).map Term.var by simp), exponent_absent h1]
        omega
      · rw [if_neg hv, if_neg hv]
        by_cases hm : v ∈ ts.map Term.var
        · rw [if_pos hm, if_pos (show v ∈ (t :: ts).map Term.var by rw [List.map_cons]; exact List.mem_cons_of_mem _ hm)]
          omega
        · rw [if_neg hm, if_neg (show v ∉ (t :: ts).map Term.var by
            rw [List.map_cons, List.mem_cons]; rintro (h | h)
            · exact hv h.symm
            · exact hm h)]

/-- The product of the powers depends on the exponents. -/
theorem powers_eq_of_exponent (x : Nat → R) : ∀ (ts us ws : List Term), (∀ v, exponent ws v = exponent ts v + exponent us v) →
    (ws.map fun t => x t.var ^ t.power).prod =
      (ts.map fun t => x t.var ^ t.power).prod * (us.map fun t => x t.var ^ t.power).prod := by
  have key : ∀ (ts : List Term) (s : Finset Nat), (∀ t ∈ ts, t.var ∈ s) →
      (ts.map fun t => x t.var ^ t.power).prod = ∏ v ∈ s, x v ^ exponent ts v := by
    intro ts s
    induction ts with
    | nil => intro _; simp [exponent]
    | cons t ts ih =>
      intro h
      rw [List.map_cons, List.prod_cons, ih fun u hu => h u (List.mem_cons_of_mem _ hu)]
      have : ∀ v ∈ s, x v ^ exponent (t :: ts) v = (if t.var = v then x v ^ t.power else 1) * x v ^ exponent ts v := by
        intro v _
        rw [exponent_cons, pow_add]
        by_cases hv : t.var = v <;> simp [hv]
      rw [Finset.prod_congr rfl this, Finset.prod_mul_distrib, Finset.prod_ite_eq, if_pos (h t (by simp))]
  intro ts us ws h
  let s : Finset Nat := ((ts ++ us ++ ws).map Term.var).toFinset
  have hs : ∀ t ∈ ts ++ us ++ ws, t.var ∈ s := fun t ht => List.mem_toFinset.2 (List.mem_map_of_mem ht)
  rw [key ts s fun t ht => hs t (by simp [ht]), key us s fun t ht => hs t (by simp [ht]),
    key ws s fun t ht => hs t (by simp [ht]), ← Finset.prod_mul_distrib]
  refine Finset.prod_congr rfl fun v _ => ?_
  rw [h, pow_add]

theorem factor_cases {m d : Monomial R} (hm : (m.terms.map Term.var).Nodup) (hd : (d.terms.map Term.var).Nodup)
    (hpos : ∀ t ∈ d.terms, 0 < t.power) :
    (¬Divides d.terms m.terms ∧ m.factor d = ⟨0, []⟩) ∨
    (Divides d.terms m.terms ∧ ∃ ts, m.factor d = ⟨m.coefficient / d.coefficient, ts⟩ ∧
      ∀ v, exponent m.terms v = exponent ts v + exponent d.terms v) := by
  unfold Monomial.factor
  cases h : m.terms.foldlM (factorTerm d) [] with
  | none =>
    left
    obtain ⟨t, ht, hlt⟩ := (factorTerms_none d _ _).1 h
    refine ⟨fun hdiv => ?_, rfl⟩
    have := hdiv t.var
    rw [exponent_mem hm ht, ← getDegreeOf_eq hd] at this
    omega
  | some ts =>
    dsimp only
    have hle : ∀ t ∈ m.terms, d.getDegreeOf t.var ≤ t.power := by
      intro t ht
      by_contra hcon
      have := (factorTerms_none d m.terms []).2 ⟨t, ht, by omega⟩
      rw [this] at h; cases h
    by_cases ha : (d.terms.any fun t => m.getDegreeOf t.var == 0) = true
    · rw [if_pos ha]
      left
      refine ⟨fun hdiv => ?_, rfl⟩
      obtain ⟨t, ht, h0⟩ := List.any_eq_true.1 ha
      have h1 := hdiv t.var
      have h2 := hpos t ht
      simp only [beq_iff_eq] at h0
      rw [exponent_mem hd ht, ← getDegreeOf_eq hm, h0] at h1
      omega
    · rw [if_neg ha]
      right
      have hd0 : ∀ v, v ∉ m.terms.map Term.var → exponent d.terms v = 0 := by
        intro v hv
        rw [exponent_absent]
        intro hv'
        obtain ⟨t, ht, rfl⟩ := List.mem_map.1 hv'
        apply ha
        refine List.any_eq_true.2 ⟨t, ht, ?_⟩
        rw [getDegreeOf_eq hm, exponent_absent hv]
        rfl
      have hdiv : Divides d.terms m.terms := by
        intro v
        by_cases hv : v ∈ m.terms.map Term.var
        · obtain ⟨t, ht, rfl⟩ := List.mem_map.1 hv
          rw [exponent_mem hm ht, ← getDegreeOf_eq hd]
          exact hle t ht
        · rw [hd0 v hv]; exact Nat.zero_le _
      refine ⟨hdiv, ts, rfl, fun v => ?_⟩
      have := factorTerms_some d m.terms [] ts hm h v
      rw [this]
      have hz : exponent [] v = 0 := rfl
      rw [hz, getDegreeOf_eq hd]
      have := hdiv v
      by_cases hv : v ∈ m.terms.map Term.var
      · rw [if_pos hv]; omega
      · rw [if_neg hv, hd0 v hv, exponent_absent hv]

/-! Polynomials with the same values. -/

/-- The exponents of a product of powers. -/
noncomputable def expo (ts : List Term) : ℕ →₀ ℕ := (ts.map fun t => Finsupp.single t.var t.power).sum

theorem expo_apply (ts : List Term) (v : Nat) : expo ts v = exponent ts v := by
  induction ts with
  | nil => rfl
  | cons t ts ih =>
    rw [exponent_cons, ← ih]
    unfold expo
    rw [List.map_cons, List.sum_cons, Finsupp.add_apply, Finsupp.single_apply]

theorem expo_perm {ts us : List Term} (ht : (ts.map Term.var).Nodup) (hu : (us.map Term.var).Nodup)
    (pt : ∀ t ∈ ts, 0 < t.power) (pu : ∀ t ∈ us, 0 < t.power) : expo ts = expo us ↔ ts.Perm us := by
  have key : ∀ {ts us : List Term}, (ts.map Term.var).Nodup → (us.map Term.var).Nodup → (∀ t ∈ ts, 0 < t.power) →
      expo ts = expo us → ∀ t ∈ ts, t ∈ us := by
    intro ts us ht hu pt he t htm
    have h1 : expo ts t.var = t.power := by rw [expo_apply, exponent_mem ht htm]
    rw [he, expo_apply] at h1
    have hv : t.var ∈ us.map Term.var := by
      by_contra hcon
      rw [exponent_absent hcon] at h1
      have := pt t htm
      omega
    obtain ⟨u, hum, huv⟩ := List.mem_map.1 hv
    rw [← huv, exponent_mem hu hum] at h1
    have : u = t := by cases u; cases t; simp_all
    exact this ▸ hum
  constructor
  · intro he
    exact (List.perm_ext_iff_of_nodup ht.of_map hu.of_map).2 fun t =>
      ⟨key ht hu pt he t, key hu ht pu he.symm t⟩
  · intro hp
    unfold expo
    exact (hp.map _).sum_eq

/-- The polynomial of the library of mathematics. -/
noncomputable def toMv (ms : List (Monomial R)) : MvPolynomial ℕ R :=
  (ms.map fun m => MvPolynomial.monomial (expo m.terms) m.coefficient).sum

theorem eval_toMv (x : Nat → R) (ms : List (Monomial R)) : MvPolynomial.eval x (toMv ms) = valueAt x ms := by
  induction ms with
  | nil => simp [toMv, valueAt]
  | cons m ms ih =>
    have e1 : toMv (m :: ms) = MvPolynomial.monomial (expo m.terms) m.coefficient + toMv ms := by
      simp [toMv]
    have e2 : valueAt x (m :: ms) = monomialAt x m + valueAt x ms := by simp [valueAt]
    rw [e1, e2, map_add, ih, MvPolynomial.eval_monomial]
    congr 1
    unfold monomialAt
    congr 1
    unfold expo
    induction m.terms with
    | nil => simp
    | cons t ts ih =>
      rw [List.map_cons, List.sum_cons, List.map_cons, List.prod_cons, ← ih, Finsupp.prod_add_index', Finsupp.prod_single_index]
      · simp
      · simp
      · intro v a b; rw [pow_add]

theorem coeff_toMv (e : ℕ →₀ ℕ) (ms : List (Monomial R)) :
    MvPolynomial.coeff e (toMv ms) = (ms.map fun m => if expo m.terms = e then m.coefficient else 0).sum := by
  induction ms with
  | nil => simp [toMv]
  | cons m ms ih =>
    have e1 : toMv (m :: ms) = MvPolynomial.monomial (expo m.terms) m.coefficient + toMv ms := by
      simp [toMv]
    rw [e1, MvPolynomial.coeff_add, ih, MvPolynomial.coeff_monomial, List.map_cons, List.sum_cons]

theorem coeff_absent {e : ℕ →₀ ℕ} {ms : List (Monomial R)} (h : ∀ m ∈ ms, expo m.terms ≠ e) :
    (ms.map fun m => if expo m.terms = e then m.coefficient else 0).sum = 0 := by
  apply List.sum_eq_zero
  intro y hy
  obtain ⟨m, hm, rfl⟩ := List.mem_map.1 hy
  rw [if_neg (h m hm)]

theorem coeff_present {ms : List (Monomial R)} (h : ms.Pairwise fun m n => expo m.terms ≠ expo n.terms)
    {m : Monomial R} (hm : m ∈ ms) : MvPolynomial.coeff (expo m.terms) (toMv ms) = m.coefficient := by
  rw [coeff_toMv]
  induction ms with
  | nil => cases hm
  | cons n ms ih =>
    rw [List.pairwise_cons] at h
    rw [List.map_cons, List.sum_cons]
    rcases List.mem_cons.1 hm with rfl | hm
    · rw [if_pos rfl, coeff_absent fun k hk => (h.1 k hk).symm, add_zero]
    · rw [if_neg (h.1 m hm), ih h.2 hm, zero_add]

theorem Spec.Reduced.expos {p : Polynomial R} (h : Reduced p) :
    p.monomials.Pairwise fun m n => expo m.terms ≠ expo n.terms := by
  refine List.Pairwise.imp_of_mem ?_ h.canonical.2
  intro m n hm hn hne he
  exact hne ((expo_perm (h.plain m hm) (h.plain n hn) (h.positive m hm) (h.positive n hn)).1 he)

theorem same_values_expo [Infinite R] {p q : Polynomial R} (hp : Reduced p) (hq : Reduced q)
    (h : ∀ x, valueOf p x = valueOf q x) : ∀ m ∈ p.monomials, ∃ n ∈ q.monomials, n.coefficient = m.coefficient ∧
      expo n.terms = expo m.terms := by
  intro m hm
  have e : toMv p.monomials = toMv q.monomials :=
    MvPolynomial.funext fun x => by rw [eval_toMv, eval_toMv]; exact h x
  have h1 := coeff_present hp.expos hm
  by_cases hc : ∃ n ∈ q.monomials, expo n.terms = expo m.terms
  · obtain ⟨n, hn, he⟩ := hc
    refine ⟨n, hn, ?_, he⟩
    have h2 := coeff_present hq.expos hn
    rw [he, ← e, h1] at h2
    exact h2.symm
  · push Not at hc
    rw [e, coeff_toMv, coeff_absent hc] at h1
    exact absurd h1.symm (hp.canonical.1 m hm)

theorem same_values [Infinite R] {p q : Polynomial R} (hp : Reduced p) (hq : Reduced q)
    (h : ∀ x, valueOf p x = valueOf q x) : ∀ m ∈ p.monomials, ∃ n ∈ q.monomials, n.coefficient = m.coefficient ∧
      n.terms.Perm m.terms := by
  intro m hm
  obtain ⟨n, hn, hc, he⟩ := same_values_expo hp hq h m hm
  exact ⟨n, hn, hc, (expo_perm (hq.plain n hn) (hp.plain m hm) (hq.positive n hn) (hp.positive m hm)).1 he⟩

/-! Affine polynomials. -/

theorem valueAt_affine (ms : List (Monomial R))
    (h : ∀ m ∈ ms, m.terms = [] ∨ ∃ v k, m.terms = [⟨v, k⟩] ∧ k ≤ 1) (x y : Nat → R) (t : R) :
    valueAt (fun v => x v + t * (y v - x v)) ms = valueAt x ms + t * (valueAt y ms - valueAt x ms) := by
  induction ms with
  | nil => simp [valueAt]
  | cons m ms ih =>
    have ih := ih fun n hn => h n (List.mem_cons_of_mem _ hn)
    have e : ∀ z : Nat → R, valueAt z (m :: ms) = monomialAt z m + valueAt z ms := by simp [valueAt]
    rw [e, e, e, ih]
    have : monomialAt (fun v => x v + t * (y v - x v)) m = monomialAt x m + t * (monomialAt y m - monomialAt x m) := by
      unfold monomialAt
      rcases h m (by simp) with h | ⟨v, k, h, hk⟩
      · rw [h]; simp
      · rw [h]
        have : k = 0 ∨ k = 1 := by omega
        rcases this with rfl | rfl
        · simp
        · simp; ring
    rw [this]; ring

theorem isAffine_iff (p : Polynomial R) :
    isAffine p = true ↔ ∀ m ∈ p.monomials, m.terms = [] ∨ ∃ v k, m.terms = [⟨v, k⟩] ∧ k ≤ 1 := by
  unfold isAffine
  rw [List.all_eq_true]
  refine forall₂_congr fun m _ => ?_
  rcases m with ⟨c, _ | ⟨⟨v, k⟩, _ | ⟨u, ts⟩⟩⟩ <;> simp [Monomial.getDegree]

/-- The sum of the powers. -/
def totalPower (ts : List Term) : Nat := (ts.map Term.power).sum

theorem monomialAt_scale (s : R) (x : Nat → R) (m : Monomial R) :
    monomialAt (fun v => s * x v) m = s ^ totalPower m.terms * monomialAt x m := by
  unfold monomialAt totalPower
  have : (m.terms.map fun t => (s * x t.var) ^ t.power).prod =
      s ^ (m.terms.map Term.power).sum * (m.terms.map fun t => x t.var ^ t.power).prod := by
    induction m.terms with
    | nil => simp
    | cons t ts ih => rw [List.map_cons, List.prod_cons, ih, List.map_cons, List.map_cons, List.prod_cons, List.sum_cons,
        mul_pow, pow_add]; ring
  rw [this]; ring

theorem valueAt_scale (s : R) (x : Nat → R) (ms : List (Monomial R)) : valueAt (fun v => s * x v) ms =
    valueAt x (ms.map fun m => ⟨s ^ totalPower m.terms * m.coefficient, m.terms⟩) := by
  unfold valueAt
  rw [List.map_map]
  congr 1
  refine List.map_congr_left fun m _ => ?_
  rw [monomialAt_scale]
  simp only [Function.comp_apply, monomialAt]
  ring

theorem affine_powers [CharZero R] {p : Polynomial R} (hp : Reduced p) (h : Affine (valueOf p)) :
    ∀ m ∈ p.monomials, totalPower m.terms ≤ 1 := by
  intro m hm
  by_contra hcon
  have e : toMv (p.monomials.map fun m => ⟨2 ^ totalPower m.terms * m.coefficient, m.terms⟩) =
      MvPolynomial.C 2 * toMv p.monomials - MvPolynomial.C (valueOf p fun _ => 0) := by
    apply MvPolynomial.funext
    intro x
    rw [eval_toMv, ← valueAt_scale, map_sub, map_mul, MvPolynomial.eval_C, MvPolynomial.eval_C, eval_toMv]
    have h1 := h (fun _ => 0) x 2
    have h2 : (fun v => 0 + 2 * (x v - 0)) = fun v => 2 * x v := by funext v; ring
    rw [h2] at h1
    show valueOf p _ = 2 * valueOf p x - _
    rw [h1]
    ring
  have hpw : (p.monomials.map fun m => (⟨2 ^ totalPower m.terms * m.coefficient, m.terms⟩ : Monomial R)).Pairwise
      fun m n => expo m.terms ≠ expo n.terms := by
    rw [List.pairwise_map]; exact hp.expos
  have h1 := coeff_present hpw (List.mem_map_of_mem hm)
  dsimp only at h1
  rw [e, MvPolynomial.coeff_sub, MvPolynomial.coeff_C_mul, coeff_present hp.expos hm, MvPolynomial.coeff_C, if_neg] at h1
  · have hc := hp.canonical.1 m hm
    rw [sub_zero] at h1
    have h2 : (2 : R) = 2 ^ totalPower m.terms := mul_right_cancel₀ hc h1
    have h3 : ((2 : ℕ) : R) = ((2 ^ totalPower m.terms : ℕ) : R) := by push_cast; exact h2
    have h4 := Nat.cast_injective h3
    have h5 : 2 ^ 2 ≤ 2 ^ totalPower m.terms := Nat.pow_le_pow_right (by omega) (by omega)
    omega
  · intro h0
    rcases hts : m.terms with _ | ⟨t, ts⟩
    · rw [hts] at hcon; simp [totalPower] at hcon
    · have ht : t ∈ m.terms := by rw [hts]; simp
      have := hp.positive m hm t ht
      have h1 : expo m.terms t.var = t.power := by rw [expo_apply, exponent_mem (hp.plain m hm) ht]
      rw [← h0] at h1
      simp at h1
      omega

theorem isAffine_of_powers {p : Polynomial R} (hp : PositivePowers p) (h : ∀ m ∈ p.monomials, totalPower m.terms ≤ 1) :
    isAffine p = true := by
  rw [isAffine_iff]
  intro m hm
  have h1 := h m hm
  have h2 := hp m hm
  rcases m with ⟨c, _ | ⟨⟨v, k⟩, _ | ⟨u, ts⟩⟩⟩
  · exact .inl rfl
  · exact .inr ⟨v, k, rfl, by simpa [totalPower] using h1⟩
  · have h3 := h2 ⟨v, k⟩ (by simp)
    have h4 := h2 u (by simp)
    simp [totalPower] at h1 h3
    omega

/-! The variables. -/

theorem mem_getVariables (p : Polynomial R) (v : Nat) : v ∈ getVariables p ↔ Mentions p v := by
  have h1 : ∀ (ts : List Term) (vars : List Nat), v ∈ ts.foldl (fun vars t =>
      if t.var ∈ vars then vars else vars.orderedInsert (· ≤ ·) t.var) vars ↔ v ∈ vars ∨ ∃ t ∈ ts, t.var = v := by
    intro ts
    induction ts with
    | nil => simp
    | cons t ts ih =>
      intro vars
      rw [List.foldl_cons, ih]
      by_cases h : t.var ∈ vars
      · rw [if_pos h]
        constructor
        · rintro (h | ⟨u, hu, rfl⟩)
          · exact .inl h
          · exact .inr ⟨u, by simp [hu], rfl⟩
        · rintro (h' | ⟨u, hu, rfl⟩)
          · exact .inl h'
          · rcases List.mem_cons.1 hu with rfl | hu
            · exact .inl h
            · exact .inr ⟨u, hu, rfl⟩
      · rw [if_neg h, List.mem_orderedInsert]
        simp only [List.mem_cons, exists_eq_or_imp]
        constructor
        · rintro ((rfl | h) | h)
          · exact .inr (.inl rfl)
          · exact .inl h
          · exact .inr (.inr h)
        · rintro (h | rfl | h)
          · exact .inl (.inr h)
          · exact .inl (.inl rfl)
          · exact .inr h
  have h2 : ∀ (ms : List (Monomial R)) (vars : List Nat), v ∈ ms.foldl (fun vars m => m.terms.foldl (fun vars t =>
      if t.var ∈ vars then vars else vars.orderedInsert (· ≤ ·) t.var) vars) vars ↔
      v ∈ vars ∨ ∃ m ∈ ms, ∃ t ∈ m.terms, t.var = v := by
    intro ms
    induction ms with
    | nil => simp
    | cons m ms ih =>
      intro vars
      rw [List.foldl_cons, ih, h1]
      simp only [List.mem_cons, exists_eq_or_imp, or_assoc]
  unfold getVariables Mentions
  rw [h2]; simp

theorem getVariables_sorted (p : Polynomial R) : (getVariables p).Pairwise (· < ·) := by
  have h0 : ∀ (a : Nat) (vars : List Nat), vars.Pairwise (· < ·) → a ∉ vars →
      (vars.orderedInsert (· ≤ ·) a).Pairwise (· < ·) := by
    intro a vars
    induction vars with
    | nil => simp
    | cons b vars ih =>
      intro h ha
      rw [List.pairwise_cons] at h
      simp only [List.mem_cons, not_or] at ha
      rw [List.orderedInsert]
      split
      · rename_i hab
        refine List.pairwise_cons.2 ⟨fun c hc => ?_, List.pairwise_cons.2 h⟩
        rcases List.mem_cons.1 hc with rfl | hc
        · omega
        · have := h.1 c hc; omega
      · rename_i hab
        refine List.pairwise_cons.2 ⟨fun c hc => ?_, ih h.2 ha.2⟩
        rw [List.mem_orderedInsert] at hc
        rcases hc with rfl | hc
        · omega
        · exact h.1 c hc
  unfold getVariables
  have h1 : ∀ (ts : List Term) (vars : List Nat), vars.Pairwise (· < ·) → (ts.foldl (fun vars t =>
      if t.var ∈ vars then vars else vars.orderedInsert (· ≤ ·) t.var) vars).Pairwise (· < ·) := by
    intro ts
    induction ts with
    | nil => intro _ h; exact h
    | cons t ts ih =>
      intro vars h
      rw [List.foldl_cons]
      apply ih
      split
      · exact h
      · exact h0 _ _ h ‹_›
  have h2 : ∀ (ms : List (Monomial R)) (vars : List Nat), vars.Pairwise (· < ·) → (ms.foldl (fun vars m => m.terms.foldl (fun vars t =>
      if t.var ∈ vars then vars else vars.orderedInsert (· ≤ ·) t.var) vars) vars).Pairwise (· < ·) := by
    intro ms
    induction ms with
    | nil => intro _ h; exact h
    | cons m ms ih => intro vars h; rw [List.foldl_cons]; exact ih _ (h1 _ _ h)
  exact h2 _ _ List.Pairwise.nil

end

/-! Comparison. -/

section
variable {R : Type} [Field R] [LinearOrder R]

theorem key_injective : Function.Injective (Monomial.key (R := R)) := by
  intro m n h
  unfold Monomial.key at h
  have h := toLex.injective h
  simp only [Prod.mk.injEq] at h
  have hi : Function.Injective fun t : Term => (toLex (t.var, t.power) : ℕ ×ₗ ℕ) := by
    intro t u h
    have h := toLex.injective h
    cases t; cases u; simp_all
  have := List.map_injective_iff.2 hi h.2
  cases m; cases n; simp_all

theorem equal_iff (p q : Polynomial R) : equal p q = true ↔ p.monomials.Perm q.monomials := by
  unfold equal
  rw [decide_eq_true_eq]
  have hp := List.perm_insertionSort (fun m n : Monomial R => m.key ≤ n.key) p.monomials
  have hq := List.perm_insertionSort (fun m n : Monomial R => m.key ≤ n.key) q.monomials
  constructor
  · intro h
    unfold sortedMonomials at h
    rw [h] at hp
    exact hp.symm.trans hq
  · intro h
    have : Std.Total (fun m n : Monomial R => m.key ≤ n.key) := ⟨fun m n => le_total _ _⟩
    have : IsTrans (Monomial R) (fun m n : Monomial R => m.key ≤ n.key) := ⟨fun m n k => le_trans⟩
    have : Std.Antisymm (fun m n : Monomial R => m.key ≤ n.key) := ⟨fun m n h1 h2 => key_injective (le_antisymm h1 h2)⟩
    exact List.Perm.eq_of_pairwise' (List.pairwise_insertionSort _ _) (List.pairwise_insertionSort _ _)
      ((hp.trans h).trans hq.symm)

/-- The mark of a monomial that has been met. -/
def mark (ts : List Term) (a : Monomial R × Bool) : Monomial R × Bool := (a.1, a.2 || decide (ts = a.1.terms))

/-- What is compared for a monomial of the other polynomial. -/
def okFor (tol : R) (kind : ToleranceType) (ps : List (Monomial R)) (m : Monomial R) : Bool :=
  match ps.find? fun a => decide (m.terms = a.terms) with
  | some a => coefficientsClose tol kind m.coefficient a.coefficient
  | none => decide (kind = .absolute) && decide (|m.coefficient| ≤ tol)

theorem matchMonomial_eq (tol : R) (kind : ToleranceType) (m : Monomial R) : ∀ (l : List (Monomial R × Bool)) (b : Bool),
    (l.map Prod.fst).Pairwise (fun a c => a.terms ≠ c.terms) → (∀ a ∈ l, a.2 = true → m.terms ≠ a.1.terms) →
    (∃ b', matchMonomial tol kind (l, b) m = some (l.map (mark m.terms), b') ∧ b' = (b && okFor tol kind (l.map Prod.fst) m)) ∨
    (matchMonomial tol kind (l, b) m = none ∧ okFor tol kind (l.map Prod.fst) m = false) := by
  intro l b hd hs
  have hidx : (l.findIdx? fun a => !a.2 && decide (m.terms = a.1.terms)) = l.findIdx? fun a => decide (m.terms = a.1.terms) := by
    clear hd
    induction l with
    | nil => rfl
    | cons a l ih =>
      rw [List.findIdx?_cons, List.findIdx?_cons, ih fun c hc => hs c (List.mem_cons_of_mem _ hc)]
      have := hs a (by simp)
      cases h2 : a.2 with
      | false => simp
      | true => simp [this h2]
  unfold matchMonomial okFor
  dsimp only
  rw [hidx]
  cases hf : l.findIdx? fun a => decide (m.terms = a.1.terms) with
  | none =>
    have hno : ∀ a ∈ l, m.terms ≠ a.1.terms := by
      intro a ha
      have := List.findIdx?_eq_none_iff.1 hf a ha
      simpa using this
    have hfind : (l.map Prod.fst).find? (fun a => decide (m.terms = a.terms)) = none := by
      rw [List.find?_eq_none]
      intro a ha
      obtain ⟨c, hc, rfl⟩ := List.mem_map.1 ha
      simpa using hno c hc
    rw [hfind]
    dsimp only
    have hmap : l.map (mark m.terms) = l := by
      rw [List.map_congr_left (g := id), List.map_id]
      intro a ha
      unfold mark
      rw [decide_eq_false (hno a ha), Bool.or_false]
      rfl
    cases kind with
    | absolute => left; exact ⟨_, by rw [hmap], by simp⟩
    | relative => right; exact ⟨rfl, by simp⟩
  | some i =>
    obtain ⟨hi, hp, -⟩ := List.findIdx?_eq_some_iff_getElem.1 hf
    rw [decide_eq_true_eq] at hp
    dsimp only
    rw [List.getElem?_eq_getElem hi]
    dsimp only
    left
    have huniq : ∀ (j : Nat) (hj : j < l.length), m.terms = l[j].1.terms → j = i := by
      intro j hj he
      rw [List.pairwise_map, List.pairwise_iff_getElem] at hd
      rcases Nat.lt_trichotomy j i with h | h | h
      · exact absurd (he.symm.trans hp) (hd j i hj hi h)
      · exact h
      · exact absurd (hp.symm.trans he) (hd i j hi hj h)
    have hfind : (l.map Prod.fst).find? (fun a => decide (m.terms = a.terms)) = some l[i].1 := by
      cases hfd : (l.map Prod.fst).find? (fun a => decide (m.terms = a.terms)) with
      | none =>
        rw [List.find?_eq_none] at hfd
        have := hfd l[i].1 (List.mem_map_of_mem (List.getElem_mem hi))
        simp [hp] at this
      | some a =>
        have h1 := List.mem_of_find?_eq_some hfd
        have h2 := List.find?_some hfd
        simp only [decide_eq_true_eq] at h2
        obtain ⟨c, hc, rfl⟩ := List.mem_map.1 h1
        obtain ⟨j, hj, rfl⟩ := List.mem_iff_getElem.1 hc
        have := huniq j hj h2
        subst this
        rfl
    rw [hfind]
    refine ⟨_, ?_, rfl⟩
    congr 2
    apply List.ext_getElem
    · simp
    · intro j h1 h2
      rw [List.getElem_modify, List.getElem_map]
      have hj : j < l.length := by simpa using h2
      unfold mark
      by_cases hij : i = j
      · subst hij
        rw [if_pos rfl]
        simp [hp]
      · rw [if_neg hij]
        have : m.terms ≠ l[j].1.terms := fun e => hij (huniq j hj e).symm
        simp [this]

theorem checkUnmatched_eq (tol : R) (kind : ToleranceType) : ∀ (l : List (Monomial R × Bool)) (b : Bool),
    checkUnmatched tol kind l b =
      (b && l.all fun a => a.2 || (decide (kind = .absolute) && decide (|a.1.coefficient| ≤ tol)))
  | [], b => by simp [checkUnmatched]
  | (m, seen) :: l, b => by
    cases seen with
    | true => simp [checkUnmatched, checkUnmatched_eq tol kind l]
    | false =>
      cases kind with
      | absolute => simp [checkUnmatched, checkUnmatched_eq tol .absolute l, Bool.and_assoc]
      | relative => simp [checkUnmatched]

/-- What follows the loop over the monomials of the other polynomial. -/
def outcome (tol : R) (kind : ToleranceType) : Option (List (Monomial R × Bool) × Bool) → Bool
  | none => false
  | some s => checkUnmatched tol kind s.1 s.2

theorem almostEqual_outcome (p q : Polynomial R) (tol : R) (kind : ToleranceType) : coefficientsAlmostEqual p q tol kind =
    outcome tol kind (q.monomials.foldlM (matchMonomial tol kind) (p.monomials.map fun m => (m, false), true)) := by
  unfold coefficientsAlmostEqual
  generalize q.monomials.foldlM (matchMonomial tol kind) (p.monomials.map fun m => (m, false), true) = o
  cases o <;> rfl

theorem almostEqual_fold (tol : R) (kind : ToleranceType) : ∀ (qs : List (Monomial R)) (l : List (Monomial R × Bool)) (b : Bool),
    qs.Pairwise (fun a c => a.terms ≠ c.terms) →
    (l.map Prod.fst).Pairwise (fun a c => a.terms ≠ c.terms) → (∀ a ∈ l, a.2 = true → ∀ m ∈ qs, m.terms ≠ a.1.terms) →
    outcome tol kind (qs.foldlM (matchMonomial tol kind) (l, b)) =
    (b && (qs.all (okFor tol kind (l.map Prod.fst)) && l.all fun a => a.2 || decide (a.1.terms ∈ qs.map Monomial.terms) ||
      (decide (kind = .absolute) && decide (|a.1.coefficient| ≤ tol))))
  | [], l, b, _, _, _ => by
    show checkUnmatched tol kind l b = _
    rw [checkUnmatched_eq]
    simp
  | m :: qs, l, b, hq, hl, hs => by
    rw [List.pairwise_cons] at hq
    rw [List.foldlM_cons]
    rcases matchMonomial_eq tol kind m l b hl fun a ha h => hs a ha h m (by simp) with ⟨b', he, hb⟩ | ⟨he, hb⟩
    · rw [he]
      have hm : (l.map (mark m.terms)).map Prod.fst = l.map Prod.fst := by
        rw [List.map_map]; rfl
      have ih := almostEqual_fold tol kind qs (l.map (mark m.terms)) b' hq.2 (by rw [hm]; exact hl) (by
        intro a ha h n hn
        obtain ⟨c, hc, rfl⟩ := List.mem_map.1 ha
        simp only [mark, Bool.or_eq_true, decide_eq_true_eq] at h ⊢
        rcases h with h | h
        · exact hs c hc h n (List.mem_cons_of_mem _ hn)
        · rw [← h]; exact (hq.1 n hn).symm)
      refine Eq.trans ih ?_
      rw [hb, hm, List.all_cons, List.all_map]
      have : (l.all ((fun a => a.2 || decide (a.1.terms ∈ qs.map Monomial.terms) ||
          (decide (kind = .absolute) && decide (|a.1.coefficient| ≤ tol))) ∘ mark m.terms)) =
          l.all fun a => a.2 || decide (a.1.terms ∈ (m :: qs).map Monomial.terms) ||
            (decide (kind = .absolute) && decide (|a.1.coefficient| ≤ tol)) := by
        congr 1
        funext a
        show (a.2 || decide (m.terms = a.1.terms) || decide (a.1.terms ∈ qs.map Monomial.terms) || _) = _
        congr 1
        rw [Bool.or_assoc]
        congr 1
        rw [Bool.eq_iff_iff]
        simp only [Bool.or_eq_true, decide_eq_true_eq, List.map_cons, List.mem_cons]
        exact or_congr_left eq_comm
      rw [this]
      simp only [Bool.and_assoc]
    · rw [he, List.all_cons, hb]
      show false = _
      simp

theorem find_terms {ps : List (Monomial R)} (hd : ps.Pairwise fun a c => a.terms ≠ c.terms) {ts : List Term} {a : Monomial R}
    (ha : a ∈ ps) (he : ts = a.terms) : (ps.find? fun a => decide (ts = a.terms)) = some a := by
  induction ps with
  | nil => cases ha
  | cons c ps ih =>
    rw [List.pairwise_cons] at hd
    rw [List.find?_cons]
    rcases List.mem_cons.1 ha with rfl | ha
    · rw [decide_eq_true he]
    · rw [decide_eq_false (fun e => hd.1 a ha (e.symm.trans he))]
      exact ih hd.2 ha

theorem almostEqual_eq {p q : Polynomial R} (hp : DistinctTerms p) (hq : DistinctTerms q) (tol : R) (kind : ToleranceType) :
    coefficientsAlmostEqual p q tol kind = true ↔ (∀ m ∈ q.monomials, okFor tol kind p.monomials m = true) ∧
      ∀ a ∈ p.monomials, a.terms ∈ q.monomials.map Monomial.terms ∨ (kind = .absolute ∧ |a.coefficient| ≤ tol) := by
  rw [almostEqual_outcome]
  have hmap : (p.monomials.map fun m => (m, false)).map Prod.fst = p.monomials := by simp [Function.comp_def]
  rw [almostEqual_fold tol kind q.monomials _ true hq (by rw [hmap]; exact hp) (by
    intro a ha h
    obtain ⟨c, -, rfl⟩ := List.mem_map.1 ha
    cases h), hmap]
  simp only [Bool.true_and, Bool.and_eq_true, List.all_eq_true, List.mem_map, Bool.or_eq_true, decide_eq_true_eq]
  refine and_congr_right fun _ => ⟨fun h a ha => ?_, fun h a ha => ?_⟩
  · have := h (a, false) ⟨a, ha, rfl⟩
    simpa using this
  · obtain ⟨c, hc, rfl⟩ := ha
    simpa using h c hc

theorem close_absolute_iff {p q : Polynomial R} (hp : DistinctTerms p) (hq : DistinctTerms q) (tol : R)
    (habs : ∀ a b : R, |a - b| = |b - a|) :
    coefficientsAlmostEqual p q tol .absolute = true ↔ CloseAbsolute tol p q := by
  rw [almostEqual_eq hp hq]
  constructor
  · rintro ⟨h1, h2⟩
    refine ⟨fun m hm n hn he => ?_, fun m hm hno => ?_, fun n hn hno => ?_⟩
    · have := h1 n hn
      unfold okFor at this
      rw [find_terms hp hm he.symm] at this
      simp only [coefficientsClose, decide_eq_true_eq] at this
      rw [habs]; exact this
    · rcases h2 m hm with h | h
      · obtain ⟨n, hn, he⟩ := List.mem_map.1 h
        exact absurd he.symm (hno n hn)
      · exact h.2
    · have := h1 n hn
      unfold okFor at this
      rw [List.find?_eq_none.2 fun a ha => by simpa using (hno a ha).symm] at this
      simpa using this
  · intro h
    refine ⟨fun n hn => ?_, fun m hm => ?_⟩
    · unfold okFor
      split
      · rename_i a ha
        have h1 := List.mem_of_find?_eq_some ha
        have h2 := List.find?_some ha
        simp only [decide_eq_true_eq] at h2
        simp only [coefficientsClose, decide_eq_true_eq]
        rw [habs]; exact h.both a h1 n hn h2.symm
      · rename_i ha
        rw [List.find?_eq_none] at ha
        have := h.right n hn fun m hm e => ha m hm (by simpa using e.symm)
        simpa using this
    · by_cases hm' : m.terms ∈ q.monomials.map Monomial.terms
      · exact .inl hm'
      · exact .inr ⟨rfl, h.left m hm fun n hn e => hm' (List.mem_map.2 ⟨n, hn, e.symm⟩)⟩

variable [IsStrictOrderedRing R]

theorem le_tol_min (tol a b : R) : |a - b| ≤ tol * min |a| |b| ↔ |b - a| ≤ tol * |b| ∧ |b - a| ≤ tol * |a| := by
  rw [abs_sub_comm b a]
  rcases le_total 0 tol with h | h
  · rw [mul_min_of_nonneg _ _ h, le_min_iff, and_comm]
  · have ha := abs_nonneg a
    have hb := abs_nonneg b
    have hd := abs_nonneg (a - b)
    rcases le_total |a| |b| with hab | hab
    · rw [min_eq_left hab]
      constructor
      · intro h1
        have h2 : tol * |a| ≤ 0 := mul_nonpos_of_nonpos_of_nonneg h ha
        have h3 : |a - b| = 0 := le_antisymm (h1.trans h2) hd
        have h4 : a = b := sub_eq_zero.1 (abs_eq_zero.1 h3)
        subst h4
        exact ⟨h1, h1⟩
      · exact fun h => h.2
    · rw [min_eq_right hab]
      constructor
      · intro h1
        have h2 : tol * |b| ≤ 0 := mul_nonpos_of_nonpos_of_nonneg h hb
        have h3 : |a - b| = 0 := le_antisymm (h1.trans h2) hd
        have h4 : a = b := sub_eq_zero.1 (abs_eq_zero.1 h3)
        subst h4
        exact ⟨h1, h1⟩
      · exact fun h => h.1

theorem close_relative_iff {p q : Polynomial R} (hp : DistinctTerms p) (hq : DistinctTerms q) (tol : R) :
    coefficientsAlmostEqual p q tol .relative = true ↔ CloseRelative tol p q := by
  rw [almostEqual_eq hp hq]
  constructor
  · rintro ⟨h1, h2⟩
    refine ⟨fun m hm n hn he => ?_, fun m hm => ?_, fun n hn => ?_⟩
    · have := h1 n hn
      unfold okFor at this
      rw [find_terms hp hm he.symm] at this
      simp only [coefficientsClose, decide_eq_true_eq] at this
      exact (le_tol_min _ _ _).1 this
    · rcases h2 m hm with h | h
      · obtain ⟨n, hn, he⟩ := List.mem_map.1 h
        exact ⟨n, hn, he.symm⟩
      · cases h.1
    · by_contra hcon
      push Not at hcon
      have := h1 n hn
      unfold okFor at this
      rw [List.find?_eq_none.2 fun a ha => by simpa using (hcon a ha).symm] at this
      simp at this
  · intro h
    refine ⟨fun n hn => ?_, fun m hm => ?_⟩
    · obtain ⟨m, hm, he⟩ := h.right n hn
      unfold okFor
      rw [find_terms hp hm he.symm]
      simp only [coefficientsClose, decide_eq_true_eq]
      exact (le_tol_min _ _ _).2 (h.both m hm n hn he)
    · obtain ⟨n, hn, he⟩ := h.left m hm
      exact .inl (List.mem_map.2 ⟨n, hn, he.symm⟩)

theorem monomialAt_abs (x : Nat → R) (c : R) (ts : List Term) :
    |monomialAt x ⟨c, ts⟩| = |c| * |(ts.map fun t => x t.var ^ t.power).prod| := by
  unfold monomialAt; rw [abs_mul]

/-- The difference of the values of lists whose coefficients are close. -/
theorem values_close (tol : R) (htol : 0 ≤ tol) (x : Nat → R) : ∀ (ps qs : List (Monomial R)),
    (ps.Pairwise fun m n => m.terms ≠ n.terms) → (qs.Pairwise fun m n => m.terms ≠ n.terms) →
    CloseAbsolute tol ⟨ps, true⟩ ⟨qs, true⟩ →
    |valueAt x ps - valueAt x qs| ≤ tol * (sizeAt ⟨ps, true⟩ x + sizeAt ⟨qs, true⟩ x) := by
  intro ps
  induction ps with
  | nil =>
    intro qs _ _ h
    have h' : ∀ n ∈ qs, |n.coefficient| ≤ tol := fun n hn => h.right n hn fun m hm => by cases hm
    clear h
    have key : |valueAt x qs| ≤ tol * sizeAt ⟨qs, true⟩ x := by
      induction qs with
      | nil => simp [valueAt, sizeAt]
      | cons n qs ih =>
        have ih := ih (by assumption |> List.Pairwise.of_cons) fun k hk => h' k (List.mem_cons_of_mem _ hk)
        have e1 : valueAt x (n :: qs) = monomialAt x n + valueAt x qs := by simp [valueAt]
        have e2 : sizeAt ⟨n :: qs, true⟩ x = |(n.terms.map fun t => x t.var ^ t.power).prod| + sizeAt ⟨qs, true⟩ x := by simp [sizeAt]
        rw [e1, e2, mul_add]
        refine (abs_add_le _ _).trans (add_le_add ?_ ih)
        rw [monomialAt_abs x n.coefficient n.terms]
        exact mul_le_mul_of_nonneg_right (h' n (by simp)) (abs_nonneg _)
    have e : valueAt x ([] : List (Monomial R)) = 0 := by simp [valueAt]
    have e' : sizeAt ⟨([] : List (Monomial R)), true⟩ x = 0 := by simp [sizeAt]
    rw [e, e', zero_sub, abs_neg, zero_add]
    exact key
  | cons m ps ih =>
    intro qs hp hq h
    rw [List.pairwise_cons] at hp
    have e1 : valueAt x (m :: ps) = monomialAt x m + valueAt x ps := by simp [valueAt]
    have e2 : sizeAt ⟨m :: ps, true⟩ x = |(m.terms.map fun t => x t.var ^ t.power).prod| + sizeAt ⟨ps, true⟩ x := by simp [sizeAt]
    rw [e1, e2]
    by_cases hc : ∃ n ∈ qs, m.terms = n.terms
    · obtain ⟨n, hn, he⟩ := hc
      obtain ⟨l, r, rfl⟩ := List.append_of_mem hn
      have hperm : (l ++ n :: r).Perm (n :: (l ++ r)) := List.perm_middle
      have hq' := hperm.pairwise hq (fun {a b} h => h.symm)
      rw [List.pairwise_cons] at hq'
      have ih := ih (l ++ r) hp.2 hq'.2 ⟨fun a ha b hb => h.both a (List.mem_cons_of_mem _ ha) b (hperm.symm.subset (List.mem_cons_of_mem _ hb)),
        fun a ha hno => h.left a (List.mem_cons_of_mem _ ha) fun b hb e => by
          rcases List.mem_cons.1 (hperm.subset hb) with rfl | hb
          · exact hp.1 a ha (he.trans e.symm)
          · exact hno b hb e,
        fun b hb hno => h.right b (hperm.symm.subset (List.mem_cons_of_mem _ hb)) fun a ha e => by
          rcases List.mem_cons.1 ha with rfl | ha
          · exact hq'.1 b hb (he.symm.trans e)
          · exact hno a ha e⟩
      have e3 : valueAt x (l ++ n :: r) = monomialAt x n + valueAt x (l ++ r) := by
        unfold valueAt
        rw [(hperm.map _).sum_eq]; simp
      have e4 : sizeAt ⟨l ++ n :: r, true⟩ x = |(n.terms.map fun t => x t.var ^ t.power).prod| + sizeAt ⟨l ++ r, true⟩ x := by
        unfold sizeAt
        dsimp only
        rw [(hperm.map _).sum_eq]; simp
      rw [e3, e4]
      have h1 : |monomialAt x m - monomialAt x n| ≤ tol * |(m.terms.map fun t => x t.var ^ t.power).prod| := by
        have : monomialAt x m - monomialAt x n = (m.coefficient - n.coefficient) * (m.terms.map fun t => x t.var ^ t.power).prod := by
          unfold monomialAt; rw [← he]; ring
        rw [this, abs_mul]
        exact mul_le_mul_of_nonneg_right (h.both m (by simp) n hn he) (abs_nonneg _)
      have h2 : 0 ≤ tol * |(n.terms.map fun t => x t.var ^ t.power).prod| := mul_nonneg htol (abs_nonneg _)
      have h3 : monomialAt x m + valueAt x ps - (monomialAt x n + valueAt x (l ++ r)) =
          (monomialAt x m - monomialAt x n) + (valueAt x ps - valueAt x (l ++ r)) := by ring
      rw [h3]
      refine (abs_add_le _ _).trans ?_
      simp only [mul_add] at ih ⊢
      linarith
    · push Not at hc
      have ih := ih qs hp.2 hq ⟨fun a ha => h.both a (List.mem_cons_of_mem _ ha), fun a ha => h.left a (List.mem_cons_of_mem _ ha),
        fun b hb hno => h.right b hb fun a ha e => by
          rcases List.mem_cons.1 ha with rfl | ha
          · exact hc b hb e
          · exact hno a ha e⟩
      have h1 : |monomialAt x m| ≤ tol * |(m.terms.map fun t => x t.var ^ t.power).prod| := by
        rw [monomialAt_abs x m.coefficient m.terms]
        exact mul_le_mul_of_nonneg_right (h.left m (by simp) hc) (abs_nonneg _)
      have h3 : monomialAt x m + valueAt x ps - valueAt x qs = monomialAt x m + (valueAt x ps - valueAt x qs) := by ring
      rw [h3]
      refine (abs_add_le _ _).trans ?_
      simp only [mul_add] at ih ⊢
      linarith

end

end Maliput.Poly
