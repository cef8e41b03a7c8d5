import Verif.Lemmas.Polynomial

set_option autoImplicit false
set_option linter.unusedSectionVars false

namespace Maliput.Poly
open Spec

variable {R : Type} [Field R] [DecidableEq R]

theorem termsM_ok (vals : Nat → Option R) : ∀ (ts : List Term) (acc y : R),
    ts.foldlM (evaluateTerm vals) acc = .ok y ↔
    (∀ t ∈ ts, (vals t.var).isSome) ∧ y = acc * powersAt (fun v => (vals v).getD 0) ts := by
  intro ts
  induction ts with
  | nil =>
    intro acc y
    simp only [List.foldlM_nil, powersAt, List.map_nil, List.prod_nil, mul_one]
    constructor
    · intro h; exact ⟨by simp, (Except.ok.inj h).symm⟩
    · rintro ⟨-, rfl⟩; rfl
  | cons t ts ih =>
    intro acc y
    simp only [List.foldlM_cons, evaluateTerm]
    cases hv : vals t.var with
    | none =>
      constructor
      · intro h; cases h
      · rintro ⟨h, -⟩; have := h t (by simp); simp [hv] at this
    | some x =>
      show List.foldlM _ (acc * x ^ t.power) ts = _ ↔ _
      rw [ih]
      simp only [List.mem_cons, forall_eq_or_imp, hv, Option.isSome_some, true_and, powersAt, List.map_cons,
        List.prod_cons, Option.getD_some, mul_assoc]

theorem termsM_error (vals : Nat → Option R) : ∀ (ts : List Term) (acc : R) (e : Err),
    ts.foldlM (evaluateTerm vals) acc = .error e → e = .outOfRange := by
  intro ts
  induction ts with
  | nil => intro acc e h; cases h
  | cons t ts ih =>
    intro acc e h
    simp only [List.foldlM_cons, evaluateTerm] at h
    cases hv : vals t.var with
    | none => rw [hv] at h; cases h; rfl
    | some x => rw [hv] at h; exact ih _ _ h

theorem evaluateMultivariate_ok (vals : Nat → Option R) (p : Polynomial R) (y : R) :
    evaluateMultivariate p vals = .ok y ↔
      (∀ v, Mentions p v → (vals v).isSome) ∧ y = valueAt (fun v => (vals v).getD 0) p.monomials := by
  obtain ⟨ms, u⟩ := p
  unfold evaluateMultivariate Mentions
  dsimp only
  suffices h : ∀ (ms : List (Monomial R)) (acc : R), ms.foldlM (evaluateMonomial vals) acc = .ok y ↔ (∀ m ∈ ms, ∀ t ∈ m.terms, (vals t.var).isSome) ∧
        y = acc + valueAt (fun v => (vals v).getD 0) ms by
    rw [h]
    simp only [zero_add]
    constructor
    · rintro ⟨h1, h2⟩
      refine ⟨?_, h2⟩
      rintro v ⟨m, hm, t, ht, rfl⟩; exact h1 m hm t ht
    · rintro ⟨h1, h2⟩
      exact ⟨fun m hm t ht => h1 _ ⟨m, hm, t, ht, rfl⟩, h2⟩
  intro ms
  induction ms with
  | nil =>
    intro acc
    simp only [List.foldlM_nil, valueAt, List.map_nil, List.sum_nil, add_zero]
    constructor
    · intro h; exact ⟨by simp, (Except.ok.inj h).symm⟩
    · rintro ⟨-, rfl⟩; rfl
  | cons m ms ih =>
    intro acc
    simp only [List.foldlM_cons, evaluateMonomial]
    constructor
    · intro h
      cases hm : m.terms.foldlM (evaluateTerm vals) m.coefficient with
      | error e => rw [hm] at h; cases h
      | ok z =>
        rw [hm] at h
        obtain ⟨h1, h2⟩ := (ih (acc + z)).1 h
        obtain ⟨g1, g2⟩ := (termsM_ok vals _ _ _).1 hm
        refine ⟨by simpa using ⟨g1, h1⟩, ?_⟩
        rw [h2, g2]; simp only [valueAt, List.map_cons, List.sum_cons, monomialAt, powersAt]; ring
    · rintro ⟨h1, h2⟩
      have hm := (termsM_ok vals m.terms m.coefficient _).2 ⟨h1 m (by simp), rfl⟩
      rw [hm]
      refine (ih _).2 ⟨fun n hn => h1 n (by simp [hn]), ?_⟩
      rw [h2]; simp only [valueAt, List.map_cons, List.sum_cons, monomialAt, powersAt]; ring

theorem evaluateMultivariate_error (vals : Nat → Option R) (p : Polynomial R) (e : Err)
    (h : evaluateMultivariate p vals = .error e) : e = .outOfRange := by
  obtain ⟨ms, u⟩ := p
  unfold evaluateMultivariate at h
  dsimp only at h
  revert h
  generalize (0 : R) = acc
  induction ms generalizing acc with
  | nil => intro h; cases h
  | cons m ms ih =>
    intro h
    simp only [List.foldlM_cons, evaluateMonomial] at h
    cases hm : m.terms.foldlM (evaluateTerm vals) m.coefficient with
    | error e' => rw [hm] at h; cases h; exact termsM_error vals _ _ _ hm
    | ok z => rw [hm] at h; exact ih _ h

/-! What a polynomial mentions. -/

theorem mentions_makeUnique {p : Polynomial R} (hp : Good p.monomials) {v : Nat} (h : Mentions (makeUnique p) v) :
    Mentions p v := by
  obtain ⟨m, hm, t, ht, rfl⟩ := h
  obtain ⟨n, hn, e⟩ := makeUnique_terms p hp m hm
  exact ⟨n, hn, t, e ▸ ht, rfl⟩

theorem mentions_add {p q : Polynomial R} (hp : Good p.monomials) (hq : Good q.monomials) {v : Nat}
    (h : Mentions (add p q) v) : Mentions p v ∨ Mentions q v := by
  obtain ⟨m, hm, ht⟩ := mentions_makeUnique (fun m hm => (List.mem_append.1 hm).elim (hp m) (hq m)) h
  rcases List.mem_append.1 hm with h | h
  · exact .inl ⟨m, h, ht⟩
  · exact .inr ⟨m, h, ht⟩

theorem mentions_sub {p q : Polynomial R} (hp : Good p.monomials) (hq : Good q.monomials) {v : Nat}
    (h : Mentions (sub p q) v) : Mentions p v ∨ Mentions q v := by
  obtain ⟨m, hm, ht⟩ := mentions_makeUnique (good_sub hp hq) h
  rcases List.mem_append.1 hm with h | h
  · exact .inl ⟨m, h, ht⟩
  · obtain ⟨n, hn, rfl⟩ := List.mem_map.1 h
    exact .inr ⟨n, hn, ht⟩

theorem mentions_mul {p q : Polynomial R} (hp : Good p.monomials) {v : Nat} (h : Mentions (mul p q) v) :
    Mentions p v ∨ Mentions q v := by
  obtain ⟨a, ha, t, ht, rfl⟩ := mentions_makeUnique (good_mul hp) h
  obtain ⟨m, hm, h⟩ := List.mem_flatMap.1 ha
  obtain ⟨n, hn, rfl⟩ := List.mem_map.1 h
  rcases (mulTerms_spec (fun _ => (0 : R)) n.terms m.terms (hp m hm)).2.2 t.var (List.mem_map_of_mem ht) with h | h
  · obtain ⟨u, hu, e⟩ := List.mem_map.1 h
    exact .inl ⟨m, hm, u, hu, e⟩
  · obtain ⟨u, hu, e⟩ := List.mem_map.1 h
    exact .inr ⟨n, hn, u, hu, e⟩

theorem mentions_addScalar {p : Polynomial R} {c : R} {v : Nat} (h : Mentions (addScalar p c) v) : Mentions p v := by
  obtain ⟨m, hm, t, ht, rfl⟩ := h
  rcases addScalar_terms p c m hm with e | ⟨n, hn, e⟩
  · rw [e] at ht; cases ht
  · exact ⟨n, hn, t, e ▸ ht, rfl⟩

theorem mentions_map {ms : List (Monomial R)} {u u' : Bool} {f : R → R} {v : Nat}
    (h : Mentions ⟨ms.map fun m => ⟨f m.coefficient, m.terms⟩, u⟩ v) : Mentions ⟨ms, u'⟩ v := by
  obtain ⟨m, hm, ht⟩ := h
  obtain ⟨n, hn, rfl⟩ := List.mem_map.1 hm
  exact ⟨n, hn, ht⟩

theorem mentions_pow {p : Polynomial R} (hp : Good p.monomials) {v : Nat} : ∀ n, Mentions (pow p n) v → Mentions p v := by
  intro n
  induction n using Nat.strong_induction_on with
  | _ n ih =>
    rw [pow]
    split
    · rintro ⟨m, hm, t, ht, -⟩
      simp [const] at hm; subst hm; cases ht
    · dsimp only
      have hh := ih (n / 2) (by omega)
      have hg := pow_good hp (n / 2)
      split
      · intro h
        rcases mentions_mul (mul_good hp) h with h | h
        · rcases mentions_mul hp h with h | h
          · exact h
          · exact hh h
        · exact hh h
      · intro h
        exact (mentions_mul hg h).elim hh hh

theorem mentions_build {v : Nat} : ∀ e : Expr R, e.Plain → Mentions e.build v → e.Mentions v := by
  intro e
  induction e with
  | zero => rintro - ⟨m, hm, -⟩; cases hm
  | const c => rintro - ⟨m, hm, t, ht, -⟩; simp [Expr.build, Poly.const] at hm; subst hm; cases ht
  | var c w =>
    rintro - ⟨m, hm, t, ht, rfl⟩
    simp [Expr.build, ofVar] at hm; subst hm; simp at ht; subst ht; rfl
  | monomials ms =>
    intro h hm
    exact mentions_makeUnique (p := ⟨ms, true⟩) h hm
  | add a b iha ihb =>
    intro h hm
    exact (mentions_add (build_good a h.1) (build_good b h.2) hm).imp (iha h.1) (ihb h.2)
  | sub a b iha ihb =>
    intro h hm
    exact (mentions_sub (build_good a h.1) (build_good b h.2) hm).imp (iha h.1) (ihb h.2)
  | mul a b iha ihb =>
    intro h hm
    exact (mentions_mul (build_good a h.1) hm).imp (iha h.1) (ihb h.2)
  | neg a ih => intro h hm; exact ih h (mentions_map (f := fun c => -c) hm)
  | addScalar a c ih => intro h hm; exact ih h (mentions_addScalar hm)
  | subScalar a c ih => intro h hm; simp only [Expr.build, subScalar_eq] at hm; exact ih h (mentions_addScalar hm)
  | scalarSub c a ih => intro h hm; exact ih h (mentions_map (f := fun c => -c) (mentions_addScalar hm))
  | mulScalar a c ih => intro h hm; exact ih h (mentions_map (f := fun d => d * c) hm)
  | divScalar a c ih => intro h hm; exact ih h (mentions_map (f := fun d => d / c) hm)
  | pow a n ih => intro h hm; exact ih h (mentions_pow (build_good a h) n hm)

/-! Partial evaluation. -/

theorem partialMonomial_spec (vals : Nat → Option R) (x : Nat → R) (ts : List Term) : ∀ m : Monomial R,
    let r := ts.foldl (init := m) fun (acc : Monomial R) t =>
      match vals t.var with
      | some y => ⟨acc.coefficient * y ^ t.power, acc.terms⟩
      | none => ⟨acc.coefficient, acc.terms ++ [t]⟩
    monomialAt x r = monomialAt x m * powersAt (fun v => (vals v).getD (x v)) ts ∧
      (∃ us, us.Sublist ts ∧ r.terms = m.terms ++ us) ∧ (∀ t ∈ r.terms, t ∈ m.terms ∨ vals t.var = none) := by
  induction ts with
  | nil => intro m; exact ⟨by simp [powersAt], ⟨[], .slnil, by simp⟩, fun t ht => .inl ht⟩
  | cons t ts ih =>
    intro m
    simp only [List.foldl_cons]
    cases hv : vals t.var with
    | some y =>
      dsimp only
      obtain ⟨h1, ⟨us, hs, e⟩, h3⟩ := ih ⟨m.coefficient * y ^ t.power, m.terms⟩
      refine ⟨?_, ⟨us, hs.cons _, e⟩, h3⟩
      rw [h1]; simp only [monomialAt, powersAt, List.map_cons, List.prod_cons, hv, Option.getD_some]; ring
    | none =>
      dsimp only
      obtain ⟨h1, ⟨us, hs, e⟩, h3⟩ := ih ⟨m.coefficient, m.terms ++ [t]⟩
      refine ⟨?_, ⟨t :: us, hs.cons_cons _, by rw [e]; simp⟩, ?_⟩
      · rw [h1]
        simp only [monomialAt, powersAt, List.map_cons, List.prod_cons, hv, Option.getD_none, List.map_append,
          List.prod_append, List.map_nil, List.prod_nil]; ring
      · intro u hu
        rcases h3 u hu with h | h
        · rcases List.mem_append.1 h with h | h
          · exact .inl h
          · simp at h; subst h; exact .inr hv
        · exact .inr h

theorem partial_good (vals : Nat → Option R) {ms : List (Monomial R)} (h : Good ms) :
    Good (ms.map (partialMonomial vals)) := by
  intro m hm
  obtain ⟨n, hn, rfl⟩ := List.mem_map.1 hm
  obtain ⟨-, ⟨us, hs, e⟩, -⟩ := partialMonomial_spec vals (fun _ => 0) n.terms ⟨n.coefficient, []⟩
  show (List.map Term.var (partialMonomial vals n).terms).Nodup
  rw [show (partialMonomial vals n).terms = us from e]
  exact (hs.map _).nodup (h n hn)

theorem partial_value (vals : Nat → Option R) (x : Nat → R) (ms : List (Monomial R)) :
    valueAt x (ms.map (partialMonomial vals)) = valueAt (fun v => (vals v).getD (x v)) ms := by
  induction ms with
  | nil => rfl
  | cons m ms ih =>
    simp only [valueAt, List.map_cons, List.sum_cons] at ih ⊢
    rw [ih]
    congr 1
    have := (partialMonomial_spec vals x m.terms ⟨m.coefficient, []⟩).1
    simp only [monomialAt, List.map_nil, List.prod_nil, mul_one] at this ⊢
    exact this

theorem mentions_partial (vals : Nat → Option R) {p : Polynomial R} (hp : Good p.monomials) {v : Nat}
    (h : Mentions (evaluatePartial p vals) v) : Mentions p v ∧ vals v = none := by
  obtain ⟨m, hm, t, ht, rfl⟩ := mentions_makeUnique (partial_good vals hp) h
  obtain ⟨n, hn, rfl⟩ := List.mem_map.1 hm
  obtain ⟨-, ⟨us, hs, e⟩, h3⟩ := partialMonomial_spec vals (fun _ => 0) n.terms ⟨n.coefficient, []⟩
  have hu : t ∈ us := by
    have : (partialMonomial vals n).terms = us := e
    rwa [this] at ht
  refine ⟨⟨n, hn, t, hs.subset hu, rfl⟩, ?_⟩
  rcases h3 t ht with h | h
  · cases h
  · exact h

end Maliput.Poly
