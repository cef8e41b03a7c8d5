import Mathlib.Data.Nat.Factorial.Basic
import Mathlib.Data.Nat.Factorial.Cast
import Mathlib.Algebra.CharZero.Defs
import Verif.Lemmas.PolynomialEval

set_option autoImplicit false
set_option linter.unusedSectionVars false

namespace Maliput.Poly
open Spec

variable {R : Type} [Field R] [DecidableEq R]

theorem hasSameExponents_of_perm {m n : Monomial R} (h : m.terms.Perm n.terms) : m.hasSameExponents n = true := by
  simp only [Monomial.hasSameExponents, Bool.and_eq_true, beq_iff_eq, List.all_eq_true]
  exact ⟨h.length_eq, fun t ht => by simpa using h.subset ht⟩

theorem modify_append_left {α : Type} (f : α → α) : ∀ (l l' : List α) (j : Nat), j < l.length →
    (l ++ l').modify j f = l.modify j f ++ l' := by
  intro l
  induction l with
  | nil => intro l' j h; simp at h
  | cons a l ih =>
    intro l' j h
    cases j with
    | zero => simp
    | succ j => simpa using ih l' j (by simpa using h)

/-- What holds of the monomials from place `i` on when the rounds have reached `i`. -/
def Settled (i : Nat) (ms : List (Monomial R)) : Prop :=
  ∃ pre suf, ms = pre ++ suf ∧ pre.length = i ∧ (∀ m ∈ suf, m.coefficient ≠ 0 ∧ ∀ n ∈ pre, ¬SameExponents n m) ∧
    suf.Pairwise fun m n => ¬SameExponents m n

theorem settled_round (s : UniqueState R) (i : Nat) (h : Settled (i + 1) s.monomials) :
    Settled i (uniqueRound s i).monomials := by
  obtain ⟨pre, suf, e, hl, h1, h2⟩ := h
  obtain ⟨pre, m, rfl⟩ : ∃ p m, pre = p ++ [m] := by
    refine ⟨pre.dropLast, pre.getLast (by rintro rfl; simp at hl), ?_⟩
    exact (List.dropLast_append_getLast _).symm
  have hl' : pre.length = i := by simpa using hl
  have hi : s.monomials[i]? = some m := by rw [e, ← hl']; simp
  have herase : ∀ pre' : List (Monomial R), pre'.length = i → (pre' ++ [m] ++ suf).eraseIdx i = pre' ++ suf := by
    intro pre' hp
    rw [List.append_assoc, List.eraseIdx_append_of_length_le (by omega)]
    simp [hp]
  unfold uniqueRound
  rw [hi]
  dsimp only
  split
  · refine ⟨pre, suf, ?_, hl', fun a ha => ⟨(h1 a ha).1, fun n hn => (h1 a ha).2 n (by simp [hn])⟩, h2⟩
    show s.monomials.eraseIdx i = _
    rw [e, herase pre hl']
  · rename_i h0
    rw [noteVariables_monomials]
    split
    · rename_i j hj
      have hji := (take_findIdx hj).1
      refine ⟨pre.modify j fun mj => ⟨mj.coefficient + m.coefficient, mj.terms⟩, suf, ?_, by simpa using hl', ?_, h2⟩
      · show (s.monomials.modify j _).eraseIdx i = _
        rw [e, List.append_assoc, modify_append_left _ _ _ _ (by omega), ← List.append_assoc,
          herase _ (by simpa using hl')]
      · intro a ha
        refine ⟨(h1 a ha).1, fun n hn => ?_⟩
        rcases mem_modify hn with h | ⟨b, hb, rfl⟩
        · exact (h1 a ha).2 n (by simp [h])
        · exact (h1 a ha).2 b (by simp [hb])
    · rename_i hj
      rw [noteVariables_monomials]
      have htake : s.monomials.take i = pre := by rw [e, List.append_assoc, ← hl']; simp
      rw [htake, List.findIdx?_eq_none_iff] at hj
      refine ⟨pre, m :: suf, by rw [e]; simp, hl', ?_, ?_⟩
      · intro a ha
        rcases List.mem_cons.1 ha with rfl | ha
        · refine ⟨h0, fun n hn hp => ?_⟩
          have := hj n hn
          rw [hasSameExponents_of_perm (List.Perm.symm hp)] at this
          cases this
        · exact ⟨(h1 a ha).1, fun n hn => (h1 a ha).2 n (by simp [hn])⟩
      · exact List.pairwise_cons.2 ⟨fun a ha => (h1 a ha).2 m (by simp), h2⟩

theorem settled_rounds : ∀ (n : Nat) (s : UniqueState R), Good s.monomials → Settled n s.monomials →
    Settled 0 ((List.range n).reverse.foldl uniqueRound s).monomials := by
  intro n
  induction n with
  | zero => intro s _ h; simpa using h
  | succ n ih =>
    intro s hs h
    rw [List.range_succ, List.reverse_append]
    simp only [List.reverse_cons, List.reverse_nil, List.nil_append, List.cons_append, List.foldl_cons]
    exact ih _ (uniqueRound_value (fun _ => 0) s n hs).2.1 (settled_round s n h)

theorem makeUnique_canonical (p : Polynomial R) (hp : Good p.monomials) : Canonical (makeUnique p) := by
  obtain ⟨pre, suf, e, hl, h1, h2⟩ := settled_rounds p.monomials.length ⟨p.monomials, 0, p.isUnivariate⟩ hp
    ⟨p.monomials, [], by simp, rfl, by simp, .nil⟩
  have : pre = [] := by simpa using hl
  subst this
  have e' : (makeUnique p).monomials = suf := e
  exact ⟨fun m hm => (h1 m (e' ▸ hm)).1, e' ▸ h2⟩

/-! The flag. -/

/-- What the flags say of the monomials from place `i` on. -/
def Flagged (i : Nat) (s : UniqueState R) : Prop :=
  s.isUnivariate = true → ∀ m ∈ s.monomials.drop i, m.terms = [] ∨ 0 < s.uniqueVar ∧ ∃ k, m.terms = [⟨s.uniqueVar, k⟩]

theorem noteVariables_spec (s : UniqueState R) (m : Monomial R) (hpos : ∀ t ∈ m.terms, 0 < t.var)
    (h : (noteVariables s m).isUnivariate = true) :
    s.isUnivariate = true ∧ (0 < s.uniqueVar → (noteVariables s m).uniqueVar = s.uniqueVar) ∧
      (m.terms = [] ∨ 0 < (noteVariables s m).uniqueVar ∧ ∃ k, m.terms = [⟨(noteVariables s m).uniqueVar, k⟩]) := by
  revert h
  unfold noteVariables
  cases ht : m.terms with
  | nil => intro h; exact ⟨h, fun _ => rfl, .inl rfl⟩
  | cons t ts =>
    have htp : 0 < t.var := hpos t (by simp [ht])
    dsimp only
    by_cases hts : ts = []
    · subst hts
      simp only [if_true]
      by_cases hv : t.var = s.uniqueVar
      · rw [if_neg (by simpa using hv)]
        intro h
        exact ⟨h, fun _ => rfl, .inr ⟨hv ▸ htp, t.power, by rw [← hv]⟩⟩
      · rw [if_pos hv]
        by_cases hu : 0 < s.uniqueVar
        · rw [if_pos hu]; intro h; cases h
        · rw [if_neg hu]
          intro h
          exact ⟨h, fun h' => absurd h' hu, .inr ⟨htp, t.power, rfl⟩⟩
    · simp only [if_neg hts]
      split
      · split <;> intro h <;> cases h
      · intro h; cases h

theorem drop_getElem? {α : Type} {l : List α} {i : Nat} {a : α} (h : l[i]? = some a) : l.drop i = a :: l.drop (i + 1) := by
  obtain ⟨hi, rfl⟩ := List.getElem?_eq_some_iff.1 h
  exact List.drop_eq_getElem_cons hi

theorem flagged_round (s : UniqueState R) (i : Nat) (hpos : ∀ m ∈ s.monomials, ∀ t ∈ m.terms, 0 < t.var)
    (h : Flagged (i + 1) s) : Flagged i (uniqueRound s i) := by
  unfold uniqueRound
  cases hi : s.monomials[i]? with
  | none =>
    have : s.monomials.length ≤ i := by simpa using hi
    intro _ m hm
    rw [List.drop_eq_nil_of_le this] at hm; cases hm
  | some mi =>
    dsimp only
    have hdrop : ∀ l : List (Monomial R), (l.eraseIdx i).drop i = l.drop (i + 1) := by
      intro l
      induction l generalizing i with
      | nil => simp
      | cons a l ih =>
        cases i with
        | zero => simp
        | succ i =>
          simp only [List.eraseIdx_cons_succ, List.drop_succ_cons]
          clear hi h
          revert i
          clear ih
          induction l with
          | nil => intro i; simp
          | cons b l ih => intro i; cases i with
            | zero => simp
            | succ i => simpa using ih i
    have key : (noteVariables s mi).isUnivariate = true → ∀ m ∈ mi :: s.monomials.drop (i + 1),
        m.terms = [] ∨ 0 < (noteVariables s mi).uniqueVar ∧ ∃ k, m.terms = [⟨(noteVariables s mi).uniqueVar, k⟩] := by
      intro hu m hm
      obtain ⟨g1, g2, g3⟩ := noteVariables_spec s mi (hpos mi (List.mem_iff_getElem?.2 ⟨i, hi⟩)) hu
      rcases List.mem_cons.1 hm with rfl | hm
      · exact g3
      · rcases h g1 m hm with h | ⟨h, hk⟩
        · exact .inl h
        · rw [g2 h]; exact .inr ⟨h, hk⟩
    split
    · intro hu m hm
      simp only [hdrop] at hm
      exact h hu m hm
    · rw [noteVariables_monomials]
      split
      · rename_i j hj
        intro hu m hm
        have hji := (take_findIdx hj).1
        simp only [hdrop] at hm
        rw [List.drop_modify_of_lt _ _ _ _ (by omega)] at hm
        exact key hu m (by simp [hm])
      · intro hu m hm
        rw [noteVariables_monomials, drop_getElem? hi] at hm
        exact key hu m hm

theorem flagged_rounds : ∀ (n : Nat) (s : UniqueState R), Good s.monomials →
    (∀ m ∈ s.monomials, ∀ t ∈ m.terms, 0 < t.var) → Flagged n s →
    Flagged 0 ((List.range n).reverse.foldl uniqueRound s) := by
  intro n
  induction n with
  | zero => intro s _ _ h; simpa using h
  | succ n ih =>
    intro s hs hp h
    rw [List.range_succ, List.reverse_append]
    simp only [List.reverse_cons, List.reverse_nil, List.nil_append, List.cons_append, List.foldl_cons]
    obtain ⟨-, g2, g3⟩ := uniqueRound_value (fun _ => 0) s n hs
    refine ih _ g2 ?_ (flagged_round s n hp h)
    intro m hm t ht
    obtain ⟨a, ha, e⟩ := g3 m hm
    exact hp a ha t (e ▸ ht)

theorem makeUnique_flag (p : Polynomial R) (hp : Good p.monomials) (hpos : ∀ v, Mentions p v → 0 < v)
    (h : (makeUnique p).isUnivariate = true) : ∃ v, InVariable v (makeUnique p) := by
  have := flagged_rounds p.monomials.length ⟨p.monomials, 0, p.isUnivariate⟩ hp
    (fun m hm t ht => hpos _ ⟨m, hm, t, ht, rfl⟩) (by intro _ m hm; simp at hm)
  refine ⟨((List.range p.monomials.length).reverse.foldl uniqueRound ⟨p.monomials, 0, p.isUnivariate⟩).uniqueVar,
    fun m hm => ?_⟩
  rcases this h m hm with h | ⟨-, hk⟩
  · exact .inl h
  · exact .inr hk

theorem inVariable_of_terms {v : Nat} {p q : Polynomial R}
    (h : ∀ m ∈ p.monomials, m.terms = [] ∨ ∃ n ∈ q.monomials, m.terms = n.terms) (hq : InVariable v q) :
    InVariable v p := by
  intro m hm
  rcases h m hm with e | ⟨n, hn, e⟩
  · exact .inl e
  · rw [e]; exact hq n hn

theorem addScalar_flag (p : Polynomial R) (c : R) : (addScalar p c).isUnivariate = p.isUnivariate := by
  unfold addScalar; split <;> rfl

theorem pow_flag {p : Polynomial R} (hp : Good p.monomials) (hpos : ∀ v, Mentions p v → 0 < v) : ∀ n,
    (pow p n).isUnivariate = true → ∃ v, InVariable v (pow p n) := by
  intro n
  rw [pow]
  split
  · intro _; exact ⟨0, by simp [const, InVariable]⟩
  · dsimp only
    have hg := pow_good hp (n / 2)
    split
    · refine makeUnique_flag _ (good_mul (mul_good hp)) ?_
      rintro v ⟨a, ha, t, ht, rfl⟩
      obtain ⟨m, hm, h⟩ := List.mem_flatMap.1 ha
      obtain ⟨k, hk, rfl⟩ := List.mem_map.1 h
      rcases (mulTerms_spec (fun _ => (0 : R)) k.terms m.terms (mul_good hp m hm)).2.2 t.var (List.mem_map_of_mem ht) with h | h
      · obtain ⟨u, hu, e⟩ := List.mem_map.1 h
        rw [← e]
        rcases mentions_mul hp ⟨m, hm, u, hu, rfl⟩ with h | h
        · exact hpos _ h
        · exact hpos _ (mentions_pow hp _ h)
      · obtain ⟨u, hu, e⟩ := List.mem_map.1 h
        exact e ▸ hpos _ (mentions_pow hp _ ⟨k, hk, u, hu, rfl⟩)
    · refine makeUnique_flag _ (good_mul hg) ?_
      rintro v ⟨a, ha, t, ht, rfl⟩
      obtain ⟨m, hm, h⟩ := List.mem_flatMap.1 ha
      obtain ⟨k, hk, rfl⟩ := List.mem_map.1 h
      rcases (mulTerms_spec (fun _ => (0 : R)) k.terms m.terms (hg m hm)).2.2 t.var (List.mem_map_of_mem ht) with h | h
      · obtain ⟨u, hu, e⟩ := List.mem_map.1 h
        exact e ▸ hpos _ (mentions_pow hp _ ⟨m, hm, u, hu, rfl⟩)
      · obtain ⟨u, hu, e⟩ := List.mem_map.1 h
        exact e ▸ hpos _ (mentions_pow hp _ ⟨k, hk, u, hu, rfl⟩)

theorem mentions_flatMap {p q : Polynomial R} (hp : Good p.monomials) {v : Nat} {u : Bool}
    (h : Mentions ⟨p.monomials.flatMap fun m => q.monomials.map fun n => mulMonomial m n, u⟩ v) :
    Mentions p v ∨ Mentions q v := by
  obtain ⟨a, ha, t, ht, rfl⟩ := h
  obtain ⟨m, hm, h⟩ := List.mem_flatMap.1 ha
  obtain ⟨n, hn, rfl⟩ := List.mem_map.1 h
  rcases (mulTerms_spec (fun _ => (0 : R)) n.terms m.terms (hp m hm)).2.2 t.var (List.mem_map_of_mem ht) with h | h
  · obtain ⟨u, hu, e⟩ := List.mem_map.1 h
    exact .inl ⟨m, hm, u, hu, e⟩
  · obtain ⟨u, hu, e⟩ := List.mem_map.1 h
    exact .inr ⟨n, hn, u, hu, e⟩

theorem build_flag : ∀ e : Expr R, e.Plain → (∀ v, e.Mentions v → 0 < v) → e.build.isUnivariate = true →
    ∃ v, InVariable v e.build := by
  intro e
  induction e with
  | zero => intro _ _ _; exact ⟨0, by simp [Expr.build, Poly.zero, InVariable]⟩
  | const c => intro _ _ _; exact ⟨0, by simp [Expr.build, Poly.const, InVariable]⟩
  | var c v => intro _ _ _; exact ⟨v, by simp [Expr.build, ofVar, InVariable]⟩
  | monomials ms => intro h hp hu; exact makeUnique_flag ⟨ms, true⟩ h hp hu
  | add a b iha ihb =>
    intro h hp hu
    refine makeUnique_flag _ (fun m hm => (List.mem_append.1 hm).elim (build_good a h.1 m) (build_good b h.2 m)) ?_ hu
    rintro v ⟨m, hm, ht⟩
    rcases List.mem_append.1 hm with hm | hm
    · exact hp v (.inl (mentions_build a h.1 ⟨m, hm, ht⟩))
    · exact hp v (.inr (mentions_build b h.2 ⟨m, hm, ht⟩))
  | sub a b iha ihb =>
    intro h hp hu
    refine makeUnique_flag _ (good_sub (build_good a h.1) (build_good b h.2)) ?_ hu
    rintro v ⟨m, hm, ht⟩
    rcases List.mem_append.1 hm with hm | hm
    · exact hp v (.inl (mentions_build a h.1 ⟨m, hm, ht⟩))
    · obtain ⟨n, hn, rfl⟩ := List.mem_map.1 hm
      exact hp v (.inr (mentions_build b h.2 ⟨n, hn, ht⟩))
  | mul a b iha ihb =>
    intro h hp hu
    refine makeUnique_flag _ (good_mul (build_good a h.1)) ?_ hu
    intro v hv
    exact hp v ((mentions_flatMap (build_good a h.1) hv).imp (mentions_build a h.1) (mentions_build b h.2))
  | neg a ih =>
    intro h hp hu
    obtain ⟨v, hv⟩ := ih h hp hu
    refine ⟨v, inVariable_of_terms (fun m hm => ?_) hv⟩
    obtain ⟨n, hn, rfl⟩ := List.mem_map.1 hm
    exact .inr ⟨n, hn, rfl⟩
  | addScalar a c ih =>
    intro h hp hu
    obtain ⟨v, hv⟩ := ih h hp ((addScalar_flag a.build c).symm.trans hu)
    exact ⟨v, inVariable_of_terms (addScalar_terms _ _) hv⟩
  | subScalar a c ih =>
    intro h hp hu
    simp only [Expr.build, subScalar_eq] at hu ⊢
    obtain ⟨v, hv⟩ := ih h hp ((addScalar_flag a.build _).symm.trans hu)
    exact ⟨v, inVariable_of_terms (addScalar_terms _ _) hv⟩
  | scalarSub c a ih =>
    intro h hp hu
    obtain ⟨v, hv⟩ := ih h hp ((addScalar_flag (neg a.build) _).symm.trans hu)
    refine ⟨v, inVariable_of_terms (addScalar_terms _ _) (inVariable_of_terms (fun m hm => ?_) hv)⟩
    obtain ⟨n, hn, rfl⟩ := List.mem_map.1 hm
    exact .inr ⟨n, hn, rfl⟩
  | mulScalar a c ih =>
    intro h hp hu
    obtain ⟨v, hv⟩ := ih h hp hu
    refine ⟨v, inVariable_of_terms (fun m hm => ?_) hv⟩
    obtain ⟨n, hn, rfl⟩ := List.mem_map.1 hm
    exact .inr ⟨n, hn, rfl⟩
  | divScalar a c ih =>
    intro h hp hu
    obtain ⟨v, hv⟩ := ih h hp hu
    refine ⟨v, inVariable_of_terms (fun m hm => ?_) hv⟩
    obtain ⟨n, hn, rfl⟩ := List.mem_map.1 hm
    exact .inr ⟨n, hn, rfl⟩
  | pow a n ih =>
    intro h hp hu
    exact pow_flag (build_good a h) (fun v hv => hp v (mentions_build a h hv)) n hu

/-! The flag is not lost: an expression in one variable is flagged. -/

/-- The flags of monomials in the variable `v`. -/
def KeepsFlag (v : Nat) (s : UniqueState R) : Prop :=
  s.isUnivariate = true ∧ (s.uniqueVar = 0 ∨ s.uniqueVar = v)

theorem noteVariables_keeps (v : Nat) (s : UniqueState R) (m : Monomial R) (hm : m.terms = [] ∨ ∃ k, m.terms = [⟨v, k⟩])
    (h : KeepsFlag v s) : KeepsFlag v (noteVariables s m) := by
  rcases hm with e | ⟨k, e⟩
  · unfold noteVariables; rw [e]; exact h
  · unfold noteVariables; rw [e]
    dsimp only
    simp only [if_true]
    rcases h with ⟨h1, h2⟩
    split
    · rename_i hv
      split
      · omega
      · exact ⟨h1, .inr rfl⟩
    · exact ⟨h1, h2⟩

theorem makeUnique_keeps (v : Nat) (p : Polynomial R) (hp : InVariable v p) (hu : p.isUnivariate = true) :
    (makeUnique p).isUnivariate = true ∧ InVariable v (makeUnique p) := by
  have hgood : Good p.monomials := by
    intro m hm
    rcases hp m hm with e | ⟨k, e⟩ <;> rw [e] <;> simp
  suffices h : ∀ (is : List Nat) (s : UniqueState R), KeepsFlag v s →
      (∀ m ∈ s.monomials, m.terms = [] ∨ ∃ k, m.terms = [⟨v, k⟩]) → Good s.monomials →
      KeepsFlag v (is.foldl uniqueRound s) by
    refine ⟨(h _ ⟨p.monomials, 0, p.isUnivariate⟩ ⟨hu, .inl rfl⟩ hp hgood).1, ?_⟩
    intro m hm
    obtain ⟨n, hn, e⟩ := makeUnique_terms p hgood m hm
    rw [e]; exact hp n hn
  intro is
  induction is with
  | nil => intro s h _ _; exact h
  | cons i is ih =>
    intro s h hs hg
    obtain ⟨-, g2, g3⟩ := uniqueRound_value (fun _ => 0) s i hg
    refine ih _ ?_ ?_ g2
    · unfold uniqueRound
      split
      · exact h
      · rename_i mi hi
        have := noteVariables_keeps v s mi (hs mi (List.mem_iff_getElem?.2 ⟨i, hi⟩)) h
        split
        · exact h
        · dsimp only
          split
          · exact this
          · exact this
    · intro m hm
      obtain ⟨n, hn, e⟩ := g3 m hm
      rw [e]; exact hs n hn

theorem mulMonomial_inVariable (v : Nat) {m n : Monomial R} (hm : m.terms = [] ∨ ∃ k, m.terms = [⟨v, k⟩])
    (hn : n.terms = [] ∨ ∃ k, n.terms = [⟨v, k⟩]) :
    (mulMonomial m n).terms = [] ∨ ∃ k, (mulMonomial m n).terms = [⟨v, k⟩] := by
  unfold mulMonomial
  rcases hn with e | ⟨k, e⟩
  · rw [e]; exact hm
  · rcases hm with e' | ⟨k', e'⟩
    · rw [e, e']; exact .inr ⟨k, by simp [mulTerm]⟩
    · rw [e, e']; exact .inr ⟨k' + k, by simp [mulTerm, List.findIdx?_cons]⟩

theorem mul_keeps {v : Nat} {p q : Polynomial R} (hp : p.isUnivariate = true ∧ InVariable v p) (hq : InVariable v q) :
    (mul p q).isUnivariate = true ∧ InVariable v (mul p q) := by
  refine makeUnique_keeps v _ ?_ hp.1
  intro a ha
  obtain ⟨m, hm, h⟩ := List.mem_flatMap.1 ha
  obtain ⟨n, hn, rfl⟩ := List.mem_map.1 h
  exact mulMonomial_inVariable v (hp.2 m hm) (hq n hn)

theorem pow_keeps {v : Nat} {p : Polynomial R} (hp : p.isUnivariate = true ∧ InVariable v p) : ∀ n,
    (pow p n).isUnivariate = true ∧ InVariable v (pow p n) := by
  intro n
  induction n using Nat.strong_induction_on with
  | _ n ih =>
    rw [pow]
    split
    · exact ⟨rfl, by simp [const, InVariable]⟩
    · dsimp only
      have hh := ih (n / 2) (by omega)
      split
      · exact mul_keeps (mul_keeps hp hh.2) hh.2
      · exact mul_keeps hh hh.2

theorem build_keeps (v : Nat) : ∀ e : Expr R, e.Plain → (∀ w, e.Mentions w → w = v) →
    e.build.isUnivariate = true ∧ InVariable v e.build := by
  intro e
  induction e with
  | zero => intro _ _; exact ⟨rfl, by simp [Expr.build, Poly.zero, InVariable]⟩
  | const c => intro _ _; exact ⟨rfl, by simp [Expr.build, Poly.const, InVariable]⟩
  | var c w => intro _ h; have := h w rfl; subst this; exact ⟨rfl, by simp [Expr.build, ofVar, InVariable]⟩
  | monomials ms =>
    intro h hv
    refine makeUnique_keeps v ⟨ms, true⟩ ?_ rfl
    intro m hm
    have hn := h m hm
    have hv' : ∀ t ∈ m.terms, t.var = v := fun t ht => hv _ ⟨m, hm, t, ht, rfl⟩
    rcases hmt : m.terms with _ | ⟨t, _ | ⟨u, ts⟩⟩
    · exact .inl rfl
    · exact .inr ⟨t.power, by rw [← hv' t (by simp [hmt])]⟩
    · rw [hmt] at hn hv'
      simp [hv' t (by simp), hv' u (by simp)] at hn
  | add a b iha ihb =>
    intro h hv
    have ha := iha h.1 fun w hw => hv w (.inl hw)
    have hb := ihb h.2 fun w hw => hv w (.inr hw)
    exact makeUnique_keeps v _ (fun m hm => (List.mem_append.1 hm).elim (ha.2 m) (hb.2 m)) ha.1
  | sub a b iha ihb =>
    intro h hv
    have ha := iha h.1 fun w hw => hv w (.inl hw)
    have hb := ihb h.2 fun w hw => hv w (.inr hw)
    refine makeUnique_keeps v _ (fun m hm => ?_) ha.1
    rcases List.mem_append.1 hm with hm | hm
    · exact ha.2 m hm
    · obtain ⟨n, hn, rfl⟩ := List.mem_map.1 hm
      exact hb.2 n hn
  | mul a b iha ihb =>
    intro h hv
    exact mul_keeps (iha h.1 fun w hw => hv w (.inl hw)) (ihb h.2 fun w hw => hv w (.inr hw)).2
  | neg a ih =>
    intro h hv
    obtain ⟨g1, g2⟩ := ih h hv
    refine ⟨g1, inVariable_of_terms (fun m hm => ?_) g2⟩
    obtain ⟨n, hn, rfl⟩ := List.mem_map.1 hm
    exact .inr ⟨n, hn, rfl⟩
  | addScalar a c ih =>
    intro h hv
    obtain ⟨g1, g2⟩ := ih h hv
    exact ⟨(addScalar_flag _ _).trans g1, inVariable_of_terms (addScalar_terms _ _) g2⟩
  | subScalar a c ih =>
    intro h hv
    obtain ⟨g1, g2⟩ := ih h hv
    simp only [Expr.build, subScalar_eq]
    exact ⟨(addScalar_flag _ _).trans g1, inVariable_of_terms (addScalar_terms _ _) g2⟩
  | scalarSub c a ih =>
    intro h hv
    obtain ⟨g1, g2⟩ := ih h hv
    refine ⟨(addScalar_flag _ _).trans g1, inVariable_of_terms (addScalar_terms _ _)
      (inVariable_of_terms (fun m hm => ?_) g2)⟩
    obtain ⟨n, hn, rfl⟩ := List.mem_map.1 hm
    exact .inr ⟨n, hn, rfl⟩
  | mulScalar a c ih =>
    intro h hv
    obtain ⟨g1, g2⟩ := ih h hv
    refine ⟨g1, inVariable_of_terms (fun m hm => ?_) g2⟩
    obtain ⟨n, hn, rfl⟩ := List.mem_map.1 hm
    exact .inr ⟨n, hn, rfl⟩
  | divScalar a c ih =>
    intro h hv
    obtain ⟨g1, g2⟩ := ih h hv
    refine ⟨g1, inVariable_of_terms (fun m hm => ?_) g2⟩
    obtain ⟨n, hn, rfl⟩ := List.mem_map.1 hm
    exact .inr ⟨n, hn, rfl⟩
  | pow a n ih => intro h hv; exact pow_keeps (ih h hv) n

/-! Derivatives. -/

/-- The value of the derivative of the given order. -/
def derivAt (n : Nat) (x : R) (ms : List (Monomial R)) : R :=
  (ms.map fun m => m.coefficient * (m.firstPower.descFactorial n : R) * x ^ (m.firstPower - n)).sum

theorem coefficient_loop (d : Nat) (c : R) (n : Nat) :
    (List.range n).foldl (fun c i => c * ((d - i : Nat) : R)) c = c * (d.descFactorial n : R) := by
  induction n with
  | zero => simp
  | succ n ih =>
    rw [List.range_succ, List.foldl_append, ih, Nat.descFactorial_succ]
    simp only [List.foldl_cons, List.foldl_nil]; push_cast; ring

theorem evaluateUnivariate_ok (p : Polynomial R) (x : R) (n : Nat) (h : p.isUnivariate = true) :
    evaluateUnivariate p x n = .ok (derivAt n x p.monomials) := by
  unfold evaluateUnivariate
  rw [if_pos h]
  show Except.ok _ = _
  congr 1
  suffices h : ∀ (ms : List (Monomial R)) (acc : R), ms.foldl (init := acc) (fun value m =>
      let degree := m.firstPower
      if degree < n then value
      else
        let c := (List.range n).foldl (fun c i => c * ((degree - i : Nat) : R)) m.coefficient
        let degree := degree - n
        if degree = 0 then value + c
        else if degree = 1 then value + c * x
        else value + c * x ^ degree) = acc + derivAt n x ms by
    have := h p.monomials 0
    rw [zero_add] at this; exact this
  intro ms
  induction ms with
  | nil => intro acc; simp [derivAt]
  | cons m ms ih =>
    intro acc
    rw [List.foldl_cons, ih]
    simp only [derivAt, List.map_cons, List.sum_cons]
    split
    · rename_i hd
      rw [Nat.descFactorial_of_lt hd]; simp
    · rw [coefficient_loop]
      split
      · rename_i h0; rw [h0]; ring
      · split
        · rename_i h1; rw [h1]; ring
        · ring

theorem derivAt_zero_eq {v : Nat} {p : Polynomial R} (hp : InVariable v p) (x : Nat → R) :
    derivAt 0 (x v) p.monomials = valueAt x p.monomials := by
  obtain ⟨ms, u⟩ := p
  induction ms with
  | nil => rfl
  | cons m ms ih =>
    have := ih fun n hn => hp n (by simp [show n ∈ ms from hn])
    simp only [derivAt, valueAt, List.map_cons, List.sum_cons] at this ⊢
    rw [this]
    congr 1
    rcases hp m (by simp) with e | ⟨k, e⟩ <;> simp [monomialAt, Monomial.firstPower, e]

theorem derivAt_derivative {v : Nat} (n k : Nat) (hn : n ≠ 0) (x : R) {p : Polynomial R} (hp : InVariable v p) :
    derivAt k x (p.monomials.filterMap (derivativeMonomial n)) = derivAt (n + k) x p.monomials := by
  obtain ⟨ms, u⟩ := p
  induction ms with
  | nil => rfl
  | cons m ms ih =>
    have ih := ih fun n hn => hp n (by simp [show n ∈ ms from hn])
    dsimp only at ih ⊢
    rw [List.filterMap_cons]
    rcases hp m (by simp) with e | ⟨d, e⟩
    · simp only [derivativeMonomial, e]
      rw [ih]
      simp only [derivAt, List.map_cons, List.sum_cons, Monomial.firstPower, e]
      rw [Nat.descFactorial_of_lt (by omega)]; simp
    · by_cases hnd : n ≤ d
      · have hd : derivativeMonomial n m = some (if d - n < 1 then ⟨m.coefficient * (d.descFactorial n : R), []⟩
            else ⟨m.coefficient * (d.descFactorial n : R), [⟨v, d - n⟩]⟩) := by
          simp only [derivativeMonomial, e, if_pos hnd, coefficient_loop]
        rw [hd]
        dsimp only
        generalize hm' : (if d - n < 1 then (⟨m.coefficient * (d.descFactorial n : R), []⟩ : Monomial R)
            else ⟨m.coefficient * (d.descFactorial n : R), [⟨v, d - n⟩]⟩) = m'
        have hfp : m'.firstPower = d - n := by
          rw [← hm']
          split
          · simp [Monomial.firstPower]; omega
          · rfl
        have hc : m'.coefficient = m.coefficient * (d.descFactorial n : R) := by
          rw [← hm']; split <;> rfl
        simp only [derivAt, List.map_cons, List.sum_cons] at ih ⊢
        rw [ih, hfp, hc]
        congr 1
        simp only [Monomial.firstPower, e]
        rw [← Nat.descFactorial_mul_descFactorial (Nat.le_add_right n k)]
        simp only [Nat.add_sub_cancel_left, Nat.sub_sub]
        push_cast; ring
      · have hd : derivativeMonomial n m = none := by simp only [derivativeMonomial, e, if_neg hnd]
        rw [hd]
        dsimp only
        rw [ih]
        simp only [derivAt, List.map_cons, List.sum_cons, Monomial.firstPower, e]
        rw [Nat.descFactorial_of_lt (show d < n + k by omega)]
        simp

end Maliput.Poly
