import Mathlib.Algebra.BigOperators.Ring.List
import Mathlib.Data.List.Nodup
import Mathlib.Tactic.Ring
import Mathlib.Tactic.FieldSimp
import Verif.Lemmas.Monad
import Verif.Spec.Polynomial

set_option autoImplicit false
set_option linter.unusedSectionVars false

namespace Maliput.Poly
open Spec

variable {R : Type} [Field R] [DecidableEq R]

/-- The sum of the values of the monomials. -/
def valueAt (x : Nat → R) (ms : List (Monomial R)) : R := (ms.map (monomialAt x)).sum

/-- No monomial lists a variable twice. -/
def Good (ms : List (Monomial R)) : Prop := ∀ m ∈ ms, (m.terms.map Term.var).Nodup

theorem sameExponents_perm {m n : Monomial R} (hm : (m.terms.map Term.var).Nodup)
    (h : m.hasSameExponents n = true) : m.terms.Perm n.terms := by
  simp only [Monomial.hasSameExponents, Bool.and_eq_true, beq_iff_eq, List.all_eq_true] at h
  have hsub : m.terms ⊆ n.terms := fun t ht => by simpa using h.2 t ht
  have hn : m.terms.Nodup := List.Nodup.of_map _ hm
  exact (List.subperm_of_subset hn hsub).perm_of_length_le (by omega)

theorem monomialAt_perm {m n : Monomial R} (x : Nat → R) (h : m.terms.Perm n.terms) :
    (m.terms.map fun t => x t.var ^ t.power).prod = (n.terms.map fun t => x t.var ^ t.power).prod :=
  (h.map _).prod_eq

theorem valueAt_eraseIdx (x : Nat → R) : ∀ (ms : List (Monomial R)) (i : Nat) (m : Monomial R), ms[i]? = some m →
    valueAt x (ms.eraseIdx i) = valueAt x ms - monomialAt x m := by
  intro ms
  induction ms with
  | nil => intro i m h; simp at h
  | cons a ms ih =>
    intro i m h
    cases i with
    | zero => simp at h; subst h; simp [valueAt]
    | succ i =>
      simp at h
      have := ih i m h
      simp only [valueAt, List.eraseIdx_cons_succ, List.map_cons, List.sum_cons] at this ⊢
      rw [this]; ring

theorem valueAt_modify (x : Nat → R) (f : Monomial R → Monomial R) : ∀ (ms : List (Monomial R)) (i : Nat)
    (m : Monomial R), ms[i]? = some m →
    valueAt x (ms.modify i f) = valueAt x ms - monomialAt x m + monomialAt x (f m) := by
  intro ms
  induction ms with
  | nil => intro i m h; simp at h
  | cons a ms ih =>
    intro i m h
    cases i with
    | zero => simp at h; subst h; simp [valueAt]; ring
    | succ i =>
      simp at h
      have := ih i m h
      simp only [valueAt, List.modify_succ_cons, List.map_cons, List.sum_cons] at this ⊢
      rw [this]; ring

theorem mem_modify {α : Type} {f : α → α} {l : List α} {i : Nat} {a : α} (h : a ∈ l.modify i f) :
    a ∈ l ∨ ∃ b ∈ l, a = f b := by
  obtain ⟨k, hk⟩ := List.mem_iff_getElem?.1 h
  rw [List.getElem?_modify] at hk
  cases hl : l[k]? with
  | none => rw [hl] at hk; simp at hk
  | some b =>
    rw [hl] at hk
    have hb : b ∈ l := List.mem_iff_getElem?.2 ⟨k, hl⟩
    simp only [Option.map_some, Option.some.injEq, Functor.map] at hk
    split at hk
    · exact .inr ⟨b, hb, hk.symm⟩
    · exact .inl (hk ▸ hb)

theorem take_findIdx {α : Type} {p : α → Bool} {l : List α} {i j : Nat}
    (h : (l.take i).findIdx? p = some j) : j < i ∧ ∃ a, l[j]? = some a ∧ p a = true := by
  rw [List.findIdx?_eq_some_iff_getElem] at h
  obtain ⟨hj, hp, -⟩ := h
  have hj' : j < i ∧ j < l.length := by simpa [List.length_take] using hj
  refine ⟨hj'.1, l[j], List.getElem?_eq_getElem hj'.2, ?_⟩
  simpa using hp

theorem noteVariables_monomials (s : UniqueState R) (m : Monomial R) :
    (noteVariables s m).monomials = s.monomials := by
  unfold noteVariables
  split
  · rfl
  · dsimp only; split <;> [split; skip] <;> rfl

/-- What a round of `MakeMonomialsUnique` preserves. -/
theorem uniqueRound_value (x : Nat → R) (s : UniqueState R) (i : Nat) (hs : Good s.monomials) :
    valueAt x (uniqueRound s i).monomials = valueAt x s.monomials ∧ Good (uniqueRound s i).monomials ∧
      (∀ m ∈ (uniqueRound s i).monomials, ∃ n ∈ s.monomials, m.terms = n.terms) := by
  unfold uniqueRound
  split
  · exact ⟨rfl, hs, fun m hm => ⟨m, hm, rfl⟩⟩
  · rename_i mi hi
    split
    · rename_i h0
      refine ⟨?_, fun m hm => hs m (List.mem_of_mem_eraseIdx hm), fun m hm => ⟨m, List.mem_of_mem_eraseIdx hm, rfl⟩⟩
      show valueAt x (s.monomials.eraseIdx i) = _
      rw [valueAt_eraseIdx x _ _ _ hi, monomialAt, h0]; ring
    · dsimp only
      rw [noteVariables_monomials]
      split
      · rename_i j hj
        obtain ⟨hji, mj, hmj, hsame⟩ := take_findIdx hj
        have hperm := sameExponents_perm (hs mi (List.mem_iff_getElem?.2 ⟨i, hi⟩)) hsame
        have hmem : ∀ m ∈ (s.monomials.modify j fun mj => ⟨mj.coefficient + mi.coefficient, mj.terms⟩).eraseIdx i,
            ∃ n ∈ s.monomials, m.terms = n.terms := by
          intro m hm
          rcases mem_modify (List.mem_of_mem_eraseIdx hm) with h | ⟨b, hb, rfl⟩
          · exact ⟨m, h, rfl⟩
          · exact ⟨b, hb, rfl⟩
        refine ⟨?_, ?_, hmem⟩
        · have hi' : (s.monomials.modify j fun mj => ⟨mj.coefficient + mi.coefficient, mj.terms⟩)[i]? = some mi := by
            rw [List.getElem?_modify, hi]; simp only [Option.map_eq_map, Option.map_some, if_neg (show ¬ j = i by omega)]
          show valueAt x (List.eraseIdx _ i) = _
          rw [valueAt_eraseIdx x _ _ _ hi', valueAt_modify x _ _ _ _ hmj]
          simp only [monomialAt]
          rw [monomialAt_perm x hperm]; ring
        · intro m hm
          obtain ⟨n, hn, e⟩ := hmem m hm
          rw [e]; exact hs n hn
      · exact ⟨by rw [noteVariables_monomials], by rw [noteVariables_monomials]; exact hs,
          by rw [noteVariables_monomials]; exact fun m hm => ⟨m, hm, rfl⟩⟩

theorem uniqueRounds_value (x : Nat → R) : ∀ (is : List Nat) (s : UniqueState R), Good s.monomials →
    valueAt x (is.foldl uniqueRound s).monomials = valueAt x s.monomials ∧ Good (is.foldl uniqueRound s).monomials ∧
      (∀ m ∈ (is.foldl uniqueRound s).monomials, ∃ n ∈ s.monomials, m.terms = n.terms) := by
  intro is
  induction is with
  | nil => intro s hs; exact ⟨rfl, hs, fun m hm => ⟨m, hm, rfl⟩⟩
  | cons i is ih =>
    intro s hs
    obtain ⟨h1, h2, h3⟩ := uniqueRound_value x s i hs
    obtain ⟨g1, g2, g3⟩ := ih _ h2
    refine ⟨g1.trans h1, g2, fun m hm => ?_⟩
    obtain ⟨n, hn, e⟩ := g3 m hm
    obtain ⟨n', hn', e'⟩ := h3 n hn
    exact ⟨n', hn', e.trans e'⟩

theorem makeUnique_value (x : Nat → R) (p : Polynomial R) (hp : Good p.monomials) :
    valueAt x (makeUnique p).monomials = valueAt x p.monomials :=
  (uniqueRounds_value x _ _ hp).1

theorem makeUnique_good (p : Polynomial R) (hp : Good p.monomials) : Good (makeUnique p).monomials :=
  (uniqueRounds_value (fun _ => 0) _ _ hp).2.1

theorem makeUnique_terms (p : Polynomial R) (hp : Good p.monomials) :
    ∀ m ∈ (makeUnique p).monomials, ∃ n ∈ p.monomials, m.terms = n.terms :=
  (uniqueRounds_value (fun _ => 0) _ _ hp).2.2

theorem valueAt_append (x : Nat → R) (a b : List (Monomial R)) : valueAt x (a ++ b) = valueAt x a + valueAt x b := by
  simp [valueAt]

theorem valueAt_map (x : Nat → R) (f : Monomial R → Monomial R) (c : R)
    (h : ∀ m, monomialAt x (f m) = c * monomialAt x m) (ms : List (Monomial R)) :
    valueAt x (ms.map f) = c * valueAt x ms := by
  induction ms with
  | nil => simp [valueAt]
  | cons m ms ih =>
    simp only [valueAt, List.map_cons, List.sum_cons] at ih ⊢
    rw [ih, h]; ring

theorem add_value (x : Nat → R) {p q : Polynomial R} (hp : Good p.monomials) (hq : Good q.monomials) :
    valueAt x (add p q).monomials = valueAt x p.monomials + valueAt x q.monomials := by
  unfold add
  rw [makeUnique_value, valueAt_append]
  intro m hm
  rcases List.mem_append.1 hm with h | h
  · exact hp m h
  · exact hq m h

theorem add_good {p q : Polynomial R} (hp : Good p.monomials) (hq : Good q.monomials) : Good (add p q).monomials :=
  makeUnique_good _ fun m hm => (List.mem_append.1 hm).elim (hp m) (hq m)

theorem good_sub {p q : Polynomial R} (hp : Good p.monomials) (hq : Good q.monomials) :
    Good (p.monomials ++ q.monomials.map fun m => (⟨m.coefficient * -1, m.terms⟩ : Monomial R)) := by
  intro m hm
  rcases List.mem_append.1 hm with h | h
  · exact hp m h
  · obtain ⟨n, hn, rfl⟩ := List.mem_map.1 h
    exact hq n hn

theorem sub_value (x : Nat → R) {p q : Polynomial R} (hp : Good p.monomials) (hq : Good q.monomials) :
    valueAt x (sub p q).monomials = valueAt x p.monomials - valueAt x q.monomials := by
  unfold sub
  rw [makeUnique_value _ _ (good_sub hp hq)]
  dsimp only
  rw [valueAt_append, valueAt_map x _ (-1) (by intro m; simp only [monomialAt]; ring)]
  ring

theorem sub_good {p q : Polynomial R} (hp : Good p.monomials) (hq : Good q.monomials) : Good (sub p q).monomials :=
  makeUnique_good _ (good_sub hp hq)

/-- The product of the powers. -/
def powersAt (x : Nat → R) (ts : List Term) : R := (ts.map fun t => x t.var ^ t.power).prod

theorem powersAt_modify (x : Nat → R) (k v : Nat) : ∀ (ts : List Term) (j : Nat) (u : Term), ts[j]? = some u →
    u.var = v → powersAt x (ts.modify j fun u => ⟨u.var, u.power + k⟩) = powersAt x ts * x v ^ k := by
  intro ts
  induction ts with
  | nil => intro j u h; simp at h
  | cons a ts ih =>
    intro j u h hv
    cases j with
    | zero => simp at h; subst h; subst hv; simp only [powersAt, List.modify_zero_cons, List.map_cons, List.prod_cons,
        pow_add]; ring
    | succ j =>
      simp at h
      have := ih j u h hv
      simp only [powersAt, List.modify_succ_cons, List.map_cons, List.prod_cons] at this ⊢
      rw [this]; ring

theorem map_var_modify (k : Nat) (ts : List Term) (j : Nat) :
    (ts.modify j fun u => (⟨u.var, u.power + k⟩ : Term)).map Term.var = ts.map Term.var := by
  induction ts generalizing j with
  | nil => simp
  | cons a ts ih => cases j with
    | zero => simp
    | succ j => simpa using ih j

theorem mulTerm_spec (x : Nat → R) (ts : List Term) (t : Term) (hn : (ts.map Term.var).Nodup) :
    powersAt x (mulTerm ts t) = powersAt x ts * x t.var ^ t.power ∧ ((mulTerm ts t).map Term.var).Nodup ∧
      (∀ v, (v ∈ (mulTerm ts t).map Term.var) → v ∈ ts.map Term.var ∨ v = t.var) := by
  unfold mulTerm
  split
  · rename_i j hj
    rw [List.findIdx?_eq_some_iff_getElem] at hj
    obtain ⟨hlt, hv, -⟩ := hj
    rw [map_var_modify]
    refine ⟨powersAt_modify x t.power t.var ts j ts[j] (List.getElem?_eq_getElem hlt) (by simpa using hv), hn,
      fun v hv => .inl hv⟩
  · rename_i hj
    rw [List.findIdx?_eq_none_iff] at hj
    refine ⟨by simp [powersAt], ?_, ?_⟩
    · rw [List.map_append, List.nodup_append]
      refine ⟨hn, by simp, ?_⟩
      intro a ha b hb e
      simp at hb; subst hb; subst e
      obtain ⟨u, hu, e⟩ := List.mem_map.1 ha
      have := hj u hu
      simp [e] at this
    · intro v hv
      rw [List.map_append, List.mem_append] at hv
      simpa using hv

theorem mulTerms_spec (x : Nat → R) (us : List Term) : ∀ (ts : List Term), (ts.map Term.var).Nodup →
    powersAt x (us.foldl mulTerm ts) = powersAt x ts * powersAt x us ∧ ((us.foldl mulTerm ts).map Term.var).Nodup ∧
      (∀ v, (v ∈ (us.foldl mulTerm ts).map Term.var) → v ∈ ts.map Term.var ∨ v ∈ us.map Term.var) := by
  induction us with
  | nil => intro ts h; exact ⟨by simp [powersAt], h, fun v hv => .inl hv⟩
  | cons u us ih =>
    intro ts h
    obtain ⟨h1, h2, h3⟩ := mulTerm_spec x ts u h
    obtain ⟨g1, g2, g3⟩ := ih _ h2
    refine ⟨?_, g2, ?_⟩
    · simp only [List.foldl_cons]
      rw [g1, h1]; simp only [powersAt, List.map_cons, List.prod_cons]; ring
    · intro v hv
      rcases g3 v hv with h | h
      · rcases h3 v h with h | h
        · exact .inl h
        · exact .inr (by simp [h])
      · exact .inr (by simp only [List.map_cons, List.mem_cons]; exact .inr h)

theorem mulMonomial_value (x : Nat → R) {m n : Monomial R} (hm : (m.terms.map Term.var).Nodup) :
    monomialAt x (mulMonomial m n) = monomialAt x m * monomialAt x n := by
  have := (mulTerms_spec x n.terms m.terms hm).1
  simp only [powersAt] at this
  simp only [monomialAt, mulMonomial, this]; ring

theorem good_mul {p q : Polynomial R} (hp : Good p.monomials) :
    Good (p.monomials.flatMap fun m => q.monomials.map fun n => mulMonomial m n) := by
  intro a ha
  obtain ⟨m, hm, h⟩ := List.mem_flatMap.1 ha
  obtain ⟨n, hn, rfl⟩ := List.mem_map.1 h
  exact (mulTerms_spec (fun _ => (0 : R)) n.terms m.terms (hp m hm)).2.1

theorem valueAt_flatMap (x : Nat → R) (qs : List (Monomial R)) : ∀ ms : List (Monomial R), Good ms →
    valueAt x (ms.flatMap fun m => qs.map fun n => mulMonomial m n) = valueAt x ms * valueAt x qs := by
  intro ms
  induction ms with
  | nil => intro; simp [valueAt]
  | cons m ms ih =>
    intro h
    have hm : ∀ qs : List (Monomial R), valueAt x (qs.map fun n => mulMonomial m n) = monomialAt x m * valueAt x qs := by
      intro qs
      induction qs with
      | nil => simp [valueAt]
      | cons n qs ihq =>
        simp only [valueAt, List.map_cons, List.sum_cons] at ihq ⊢
        rw [ihq, mulMonomial_value x (h m (by simp))]; ring
    rw [List.flatMap_cons, valueAt_append, ih (fun a ha => h a (by simp [ha])), hm]
    simp only [valueAt, List.map_cons, List.sum_cons]; ring

theorem mul_value (x : Nat → R) {p q : Polynomial R} (hp : Good p.monomials) :
    valueAt x (mul p q).monomials = valueAt x p.monomials * valueAt x q.monomials := by
  unfold mul
  rw [makeUnique_value _ _ (good_mul hp)]
  exact valueAt_flatMap x _ _ hp

theorem mul_good {p q : Polynomial R} (hp : Good p.monomials) : Good (mul p q).monomials :=
  makeUnique_good _ (good_mul hp)

theorem findIdx_empty {ms : List (Monomial R)} {i : Nat} (h : (ms.findIdx? fun m => m.terms.isEmpty) = some i) :
    ∃ m, ms[i]? = some m ∧ m.terms = [] := by
  rw [List.findIdx?_eq_some_iff_getElem] at h
  obtain ⟨hi, he, -⟩ := h
  exact ⟨ms[i], List.getElem?_eq_getElem hi, by simpa using he⟩

theorem addScalar_value (x : Nat → R) (p : Polynomial R) (c : R) :
    valueAt x (addScalar p c).monomials = valueAt x p.monomials + c := by
  unfold addScalar
  split
  · rename_i i hi
    obtain ⟨m, hm, he⟩ := findIdx_empty hi
    dsimp only
    rw [valueAt_modify x _ _ _ _ hm]
    simp only [monomialAt, he, List.map_nil, List.prod_nil]; ring
  · simp [valueAt, monomialAt]

theorem addScalar_terms (p : Polynomial R) (c : R) : ∀ m ∈ (addScalar p c).monomials,
    m.terms = [] ∨ ∃ n ∈ p.monomials, m.terms = n.terms := by
  unfold addScalar
  split
  · intro m hm
    rcases mem_modify hm with h | ⟨b, hb, rfl⟩
    · exact .inr ⟨m, h, rfl⟩
    · exact .inr ⟨b, hb, rfl⟩
  · intro m hm
    rcases List.mem_append.1 hm with h | h
    · exact .inr ⟨m, h, rfl⟩
    · simp at h; exact .inl (by rw [h])

theorem subScalar_eq (p : Polynomial R) (c : R) : subScalar p c = addScalar p (-c) := by
  unfold subScalar addScalar
  split <;> simp [sub_eq_add_neg]

theorem good_of_terms {ms ns : List (Monomial R)} (h : ∀ m ∈ ms, m.terms = [] ∨ ∃ n ∈ ns, m.terms = n.terms)
    (hn : Good ns) : Good ms := by
  intro m hm
  rcases h m hm with e | ⟨n, hn', e⟩
  · rw [e]; simp
  · rw [e]; exact hn n hn'

theorem pow_good {p : Polynomial R} (hp : Good p.monomials) : ∀ n, Good (pow p n).monomials := by
  intro n
  induction n using Nat.strong_induction_on with
  | _ n ih =>
    rw [pow]
    split
    · simp [const, Good]
    · dsimp only
      split
      · exact mul_good (mul_good hp)
      · exact mul_good (ih _ (by omega))

theorem pow_value (x : Nat → R) {p : Polynomial R} (hp : Good p.monomials) : ∀ n,
    valueAt x (pow p n).monomials = valueAt x p.monomials ^ n := by
  intro n
  induction n using Nat.strong_induction_on with
  | _ n ih =>
    rw [pow]
    split
    · rename_i h; subst h; simp [const, valueAt, monomialAt]
    · dsimp only
      have hh := ih (n / 2) (by omega)
      have hg := pow_good hp (n / 2)
      split
      · rw [mul_value x (mul_good hp), mul_value x hp, hh]
        conv_rhs => rw [show n = 1 + n / 2 + n / 2 by omega, pow_add, pow_add, pow_one]
      · rw [mul_value x hg, hh, ← pow_add]
        congr 1; omega

theorem build_good : ∀ e : Expr R, e.Plain → Good e.build.monomials := by
  intro e
  induction e with
  | zero => intro; simp [Expr.build, Poly.zero, Good]
  | const c => intro; simp [Expr.build, Poly.const, Good]
  | var c v => intro; simp [Expr.build, ofVar, Good]
  | monomials ms => intro h; exact makeUnique_good _ h
  | add a b iha ihb => intro h; exact add_good (iha h.1) (ihb h.2)
  | sub a b iha ihb => intro h; exact sub_good (iha h.1) (ihb h.2)
  | mul a b iha ihb => intro h; exact mul_good (iha h.1)
  | neg a ih =>
    intro h m hm
    obtain ⟨n, hn, rfl⟩ := List.mem_map.1 hm
    exact ih h n hn
  | addScalar a c ih => intro h; exact good_of_terms (addScalar_terms _ _) (ih h)
  | subScalar a c ih => intro h; simp only [Expr.build, subScalar_eq]; exact good_of_terms (addScalar_terms _ _) (ih h)
  | scalarSub c a ih =>
    intro h
    refine good_of_terms (addScalar_terms _ _) ?_
    intro m hm
    obtain ⟨n, hn, rfl⟩ := List.mem_map.1 hm
    exact ih h n hn
  | mulScalar a c ih =>
    intro h m hm
    obtain ⟨n, hn, rfl⟩ := List.mem_map.1 hm
    exact ih h n hn
  | divScalar a c ih =>
    intro h m hm
    obtain ⟨n, hn, rfl⟩ := List.mem_map.1 hm
    exact ih h n hn
  | pow a n ih => intro h; exact pow_good (ih h) n

theorem neg_value (x : Nat → R) (p : Polynomial R) : valueAt x (neg p).monomials = -valueAt x p.monomials := by
  unfold neg
  rw [valueAt_map x _ (-1) (by intro m; simp only [monomialAt]; ring)]; ring

theorem build_value (x : Nat → R) : ∀ e : Expr R, e.Plain → valueAt x e.build.monomials = e.meaning x := by
  intro e
  induction e with
  | zero => intro; simp [Expr.build, Poly.zero, valueAt, Expr.meaning]
  | const c => intro; simp [Expr.build, Poly.const, valueAt, Expr.meaning, monomialAt]
  | var c v => intro; simp [Expr.build, ofVar, valueAt, Expr.meaning, monomialAt]
  | monomials ms => intro h; exact makeUnique_value x _ h
  | add a b iha ihb =>
    intro h
    simp only [Expr.build, Expr.meaning]
    rw [add_value x (build_good a h.1) (build_good b h.2), iha h.1, ihb h.2]
  | sub a b iha ihb =>
    intro h
    simp only [Expr.build, Expr.meaning]
    rw [sub_value x (build_good a h.1) (build_good b h.2), iha h.1, ihb h.2]
  | mul a b iha ihb =>
    intro h
    simp only [Expr.build, Expr.meaning]
    rw [mul_value x (build_good a h.1), iha h.1, ihb h.2]
  | neg a ih => intro h; simp only [Expr.build, Expr.meaning]; rw [neg_value, ih h]
  | addScalar a c ih => intro h; simp only [Expr.build, Expr.meaning]; rw [addScalar_value, ih h]
  | subScalar a c ih => intro h; simp only [Expr.build, Expr.meaning, subScalar_eq]; rw [addScalar_value, ih h]; ring
  | scalarSub c a ih => intro h; simp only [Expr.build, Expr.meaning, scalarSub]; rw [addScalar_value, neg_value, ih h]; ring
  | mulScalar a c ih =>
    intro h
    simp only [Expr.build, Expr.meaning, mulScalar]
    rw [valueAt_map x _ c (by intro m; simp only [monomialAt]; ring), ih h]; ring
  | divScalar a c ih =>
    intro h
    simp only [Expr.build, Expr.meaning, divScalar]
    rw [valueAt_map x _ c⁻¹ (by intro m; simp only [monomialAt]; rw [div_eq_mul_inv]; ring), ih h]; rw [div_eq_mul_inv]; ring
  | pow a n ih => intro h; simp only [Expr.build, Expr.meaning]; rw [pow_value x (build_good a h), ih h]

end Maliput.Poly
