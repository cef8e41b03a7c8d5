import Verif.Lemmas.VectorConstraint
import Mathlib.Data.Rat.Defs
import Mathlib.Algebra.Order.Field.Rat
import Mathlib.Tactic.NormNum

set_option autoImplicit false
set_option linter.unusedSectionVars false

/-! Constraints of systems (C145). -/
namespace Maliput.Props

open Maliput Maliput.SystemConstraint.Spec

section
open Maliput.SystemConstraint

variable {R Ctx : Type} [Field R] [LinearOrder R] [IsStrictOrderedRing R]

/-- Bounds are accepted exactly when there are as many lower as upper ones, none is above its partner, and either some pair differs or all
of them are zero; they are kept as given.  Anything else throws. -/
theorem constraint_bounds (lower upper : List (Bound R)) :
    ((lower.length = upper.length ∧ (∀ (i : Nat) (l u : Bound R), lower[i]? = some l → upper[i]? = some u → val l ≤ val u) ∧
        (lower ≠ upper ∨ ∀ x ∈ lower, x = .fin 0)) →
      ∃ b, bounds lower upper = .ok b ∧ b.size = lower.length ∧ b.lower = lower ∧ b.upper = upper ∧
        (b.kind = .equality ↔ lower = upper)) ∧
    (¬ (lower.length = upper.length ∧ (∀ (i : Nat) (l u : Bound R), lower[i]? = some l → upper[i]? = some u → val l ≤ val u) ∧
        (lower ≠ upper ∨ ∀ x ∈ lower, x = .fin 0)) →
      bounds lower upper = .error .throws) := by
  constructor
  · rintro ⟨h1, h2, h3⟩
    by_cases he : lower = upper
    · refine ⟨⟨lower.length, .equality, lower, upper⟩, ?_, rfl, rfl, rfl, by simp [he]⟩
      rw [bounds_ok]
      exact ⟨⟨h1, h2⟩, .inr ⟨he, h3.resolve_left (fun h => h he), rfl⟩⟩
    · refine ⟨⟨lower.length, .inequality, lower, upper⟩, ?_, rfl, rfl, rfl, by simp [he]⟩
      rw [bounds_ok]
      exact ⟨⟨h1, h2⟩, .inl ⟨he, rfl⟩⟩
  · intro h
    have hno : ∀ b, bounds lower upper ≠ .ok b := by
      intro b hb
      rw [bounds_ok] at hb
      obtain ⟨⟨h1, h2⟩, h3⟩ := hb
      refine h ⟨h1, h2, ?_⟩
      rcases h3 with h3 | h3
      · exact .inl h3.1
      · exact .inr h3.2.1
    have hthrows : ∀ e, bounds lower upper = .error e → e = .throws := by
      intro e he
      simp only [bounds, boundsToType, bind, Except.bind, throwUnless, pure, Except.pure] at he
      split at he
      · next hx => 
        split at hx
        · next hy => split at hy <;> simp_all
        · split at hx
          · next hy => split at hy <;> simp_all
          · split at hx
            · simp_all
            · split at hx
              · next hy => split at hy <;> simp_all
              · split at hx
                · next hy => split at hy <;> simp_all
                · simp_all
      · simp at he
    cases hb : bounds lower upper with
    | ok b => exact absurd hb (hno b)
    | error e => rw [hthrows e hb]

/-- With one side only, the other is infinite; a constraint of no values is an equality.  An equality has any size that is not negative. -/
theorem constraint_one_sided (bs : List (Bound R)) (size : Int) :
    lowerBounds bs = bounds bs (List.replicate bs.length .posInf) ∧
    upperBounds bs = bounds (List.replicate bs.length .negInf) bs ∧
    (bs ≠ [] → (∀ b ∈ bs, ∃ x, b = .fin x) →
      lowerBounds bs = .ok ⟨bs.length, .inequality, bs, List.replicate bs.length .posInf⟩ ∧
      upperBounds bs = .ok ⟨bs.length, .inequality, List.replicate bs.length .negInf, bs⟩) ∧
    (0 ≤ size → equality (R := R) size = .ok ⟨size.toNat, .equality, List.replicate size.toNat (.fin 0), List.replicate size.toNat (.fin 0)⟩) ∧
    (size < 0 → equality (R := R) size = .error .throws) := by
  refine ⟨rfl, rfl, fun hne hfin => ?_, fun h => ?_, fun h => ?_⟩
  · constructor
    · rw [SystemConstraint.lowerBounds, bounds_ok]
      refine ⟨⟨by simp, fun i l u _ hu => ?_⟩, .inl ⟨fun he => ?_, rfl⟩⟩
      · rw [List.eq_of_mem_replicate (List.mem_of_getElem? hu)]; exact le_top
      · obtain ⟨b, hb⟩ := List.exists_mem_of_ne_nil bs hne
        obtain ⟨x, hx⟩ := hfin b hb
        rw [he] at hb
        have := List.eq_of_mem_replicate hb
        rw [hx] at this; cases this
    · rw [SystemConstraint.upperBounds, bounds_ok]
      refine ⟨⟨by simp, fun i l u hl _ => ?_⟩, .inl ⟨fun he => ?_, by simp⟩⟩
      · rw [List.eq_of_mem_replicate (List.mem_of_getElem? hl)]; exact bot_le
      · obtain ⟨b, hb⟩ := List.exists_mem_of_ne_nil bs hne
        obtain ⟨x, hx⟩ := hfin b hb
        rw [← he] at hb
        have := List.eq_of_mem_replicate hb
        rw [hx] at this; cases this
  · simp [equality, throwUnless, h, bind, Except.bind, pure, Except.pure, zeroBounds]
  · have : ¬ 0 ≤ size := by omega
    simp [equality, throwUnless, this, bind, Except.bind]

variable (idOf : Ctx → Nat)

/-- A constraint is satisfied in a context exactly when each of its values lies between its bounds, up to the tolerance. -/
theorem constraint_satisfied (k : Constraint R Ctx) (hk : Made k.bounds) (c : Ctx) (hid : ∀ i, k.systemId = some i → i = idOf c)
    (f : Ctx → Except Err (List R)) (hf : k.fn = some f) (values : List R) (hv : f c = .ok values)
    (hsize : values.length = k.bounds.size) (tol : R) (ht : 0 ≤ tol) :
    (Meets tol k.bounds.lower k.bounds.upper values → checkSatisfied idOf k c tol = .ok true) ∧
    (¬ Meets tol k.bounds.lower k.bounds.upper values → checkSatisfied idOf k c tol = .ok false) ∧
    calcValue idOf k c = .ok values := by
  have hc : calcValue idOf k c = .ok values := by rw [calc_ok]; exact ⟨hid, f, hf, hv, hsize⟩
  have hj := judge_iff hk ht hsize
  refine ⟨fun h => ?_, fun h => ?_, hc⟩
  · rw [check_ok]; exact ⟨ht, values, hc, hj.mpr h⟩
  · rw [check_ok]; exact ⟨ht, values, hc, by rw [← Bool.not_eq_true]; exact fun h' => h (hj.mp h')⟩

/-- What a check does otherwise: a context of another system or a negative tolerance ends the program, a missing function throws, an
exception of the function is passed on, and values of another number end the program. -/
theorem constraint_check_errors (k : Constraint R Ctx) (c : Ctx) (tol : R) :
    ((∃ i, k.systemId = some i ∧ i ≠ idOf c) → checkSatisfied idOf k c tol = .error .aborts) ∧
    (tol < 0 → checkSatisfied idOf k c tol = .error .aborts) ∧
    ((∀ i, k.systemId = some i → i = idOf c) → 0 ≤ tol →
      (k.fn = none → checkSatisfied idOf k c tol = .error .throws) ∧
      (∀ f, k.fn = some f →
        (∀ e, f c = .error e → checkSatisfied idOf k c tol = .error e) ∧
        (∀ values, f c = .ok values → values.length ≠ k.bounds.size → checkSatisfied idOf k c tol = .error .aborts))) := by
  refine ⟨?_, ?_, ?_⟩
  · rintro ⟨i, hi, hne⟩
    simp [checkSatisfied, validate, hi, hne, demand, bind, Except.bind]
  · intro ht
    have hn : ¬ 0 ≤ tol := not_le.mpr ht
    simp only [checkSatisfied, validate, demand, bind, Except.bind, hn, decide_false]
    cases k.systemId with
    | none => rfl
    | some i => by_cases h : i = idOf c <;> simp [h]
  · intro hid ht
    have hv : validate idOf k c = .ok () := by rw [validate_ok]; exact hid
    refine ⟨fun hf => ?_, fun f hf => ⟨fun e he => ?_, fun values he hs => ?_⟩⟩
    · simp [check_eq, calcValue, hv, hf, ht, demand, bind, Except.bind]
    · simp [check_eq, calcValue, hv, hf, he, ht, demand, bind, Except.bind]
    · simp [check_eq, calcValue, hv, hf, he, hs, ht, demand, bind, Except.bind]

/-- What is satisfied remains so with a greater tolerance. -/
theorem constraint_tolerance_mono (k : Constraint R Ctx) (hk : Made k.bounds) (c : Ctx) (tol tol' : R) (h : tol ≤ tol')
    (hs : checkSatisfied idOf k c tol = .ok true) : checkSatisfied idOf k c tol' = .ok true := by
  rw [check_ok] at hs ⊢
  obtain ⟨h0, values, hc, hj⟩ := hs
  have hsize : values.length = k.bounds.size := by
    obtain ⟨_, _, _, _, hs⟩ := (calc_ok idOf k c values).mp hc
    exact hs
  refine ⟨h0.trans h, values, hc, ?_⟩
  rw [judge_iff hk h0 hsize] at hj
  rw [judge_iff hk (h0.trans h) hsize]
  intro i l u v hl hu hv
  obtain ⟨a, b⟩ := hj i l u v hl hu hv
  exact ⟨a.trans (num_le.mpr (by linarith)), (num_le.mpr (by linarith)).trans b⟩

/-- After any calls that add constraints to a new system: a call is refused exactly when it adds an internal constraint after an external
one; the calls accepted get the indices 0, 1, ... in order, and each index goes on naming the constraint that was asked for; other
indices are out of range. -/
theorem constraints_history (id : Nat) (l : List (Add R Ctx)) :
    (∀ (j : Nat) (a : Add R Ctx) (r : Except Err Nat), l[j]? = some a →
      (performAll ⟨id, [], []⟩ l).2[j]? = some r →
      if isExternal a = false ∧ ∃ b ∈ l.take j, isExternal b = true then r = .error .throws
      else ∃ n : Nat, r = .ok n ∧ n = (((performAll ⟨id, [], []⟩ l).2.take j).filter accepted).length ∧
        getConstraint (performAll ⟨id, [], []⟩ l).1 n = .ok (asked id a)) ∧
    (performAll ⟨id, [], []⟩ l).1.constraints.length = ((performAll ⟨id, [], []⟩ l).2.filter accepted).length ∧
    (∀ i : Int, i < 0 ∨ ((performAll ⟨id, [], []⟩ l).2.filter accepted).length ≤ i →
      getConstraint (performAll ⟨id, [], []⟩ l).1 i = .error .outOfRange) := by
  obtain ⟨_, m, hm, hlen⟩ := performAll_prefix (⟨id, [], []⟩ : System R Ctx) l
  simp only [List.nil_append] at hm
  refine ⟨fun j a r ha hr => ?_, by rw [hm, hlen], fun i hi => ?_⟩
  · have := performAll_at (⟨id, [], []⟩ : System R Ctx) l j a r ha hr
    simp only [List.length_nil, Nat.zero_add, true_and] at this
    split
    · next h =>
      obtain ⟨h1, b, hb, hb'⟩ := h
      rcases this with ⟨_, _, h3⟩ | h3
      · rw [h3 h1 b hb] at hb'; cases hb'
      · exact h3.1
    · next h =>
      rcases this with ⟨h1, h2, _⟩ | ⟨_, h2, h3⟩
      · refine ⟨_, h1, rfl, ?_⟩
        have hlt := (List.getElem?_eq_some_iff.mp h2).1
        unfold getConstraint
        rw [if_neg (by omega), Int.toNat_natCast, h2]
      · exfalso
        apply h
        refine ⟨h2, ?_⟩
        push Not at h3
        obtain ⟨b, hb, hb'⟩ := h3
        exact ⟨b, hb, by simpa using hb'⟩
  · unfold getConstraint
    rw [if_pos]
    rw [hm, hlen]
    exact hi

/-- A context satisfies the constraints of a system exactly when it is one of its contexts and satisfies each of them; the first one that
is not satisfied decides, and those after it are not looked at. -/
theorem system_constraints_satisfied (s : System R Ctx) (c : Ctx) (tol : R) :
    (checkSystem idOf s c tol = .ok true ↔
      idOf c = s.id ∧ 0 ≤ tol ∧ ∀ k ∈ s.constraints, checkSatisfied idOf k c tol = .ok true) ∧
    (checkSystem idOf s c tol = .ok false ↔
      idOf c = s.id ∧ 0 ≤ tol ∧ ∃ i k, s.constraints[i]? = some k ∧ checkSatisfied idOf k c tol = .ok false ∧
        ∀ (j : Nat) (k' : Constraint R Ctx), j < i → s.constraints[j]? = some k' → checkSatisfied idOf k' c tol = .ok true) ∧
    (idOf c ≠ s.id → checkSystem idOf s c tol = .error .throws) ∧
    (idOf c = s.id → tol < 0 → checkSystem idOf s c tol = .error .aborts) := by
  simp only [checkSystem, bind_ok, throwUnless_ok, demand_ok, decide_eq_true_eq, checkAll_true, checkAll_false]
  refine ⟨⟨fun ⟨_, a, _, b, h⟩ => ⟨a, b, h⟩, fun ⟨a, b, h⟩ => ⟨(), a, (), b, h⟩⟩,
    ⟨fun ⟨_, a, _, b, h⟩ => ⟨a, b, h⟩, fun ⟨a, b, h⟩ => ⟨(), a, (), b, h⟩⟩, fun h => ?_, fun h ht => ?_⟩
  · simp [throwUnless, h, bind, Except.bind]
  · simp [throwUnless, h, bind, Except.bind, demand, not_le.mpr ht]

/-- The whole way: after calls that add constraints whose functions give the values declared, a context of the system passes the check
exactly when the values of every constraint that was accepted lie between their bounds up to the tolerance; constraints without a
function for numbers ask for nothing. -/
theorem constraints_whole (id : Nat) (l : List (Add R Ctx)) (c : Ctx) (hc : idOf c = id) (tol : R) (ht : 0 ≤ tol)
    (hint : ∀ k, Add.internal k ∈ l → Made k.bounds ∧ ∃ f values, k.fn = some f ∧ f c = .ok values ∧ values.length = k.bounds.size)
    (hext : ∀ e f, Add.external e ∈ l → e.fn = some f → Made e.bounds ∧ ∃ values, f c = .ok values ∧ values.length = e.bounds.size) :
    ∃ r, checkSystem idOf (performAll ⟨id, [], []⟩ l).1 c tol = .ok r ∧
      (r = true ↔
        (∀ (j : Nat) (k : Constraint R Ctx) f values, l[j]? = some (.internal k) → (∀ b ∈ l.take j, isExternal b = false) →
          k.fn = some f → f c = .ok values → Meets tol k.bounds.lower k.bounds.upper values) ∧
        (∀ (e : External R Ctx) f values, Add.external e ∈ l → e.fn = some f → f c = .ok values →
          Meets tol e.bounds.lower e.bounds.upper values)) := by
  -- every constraint of the system was asked for by an accepted call
  have hall : ∀ (s : System R Ctx) (l : List (Add R Ctx)) (k : Constraint R Ctx), k ∈ (performAll s l).1.constraints ↔
      k ∈ s.constraints ∨ ∃ (j : Nat) (a : Add R Ctx), l[j]? = some a ∧ k = asked s.id a ∧
        (isExternal a = false → s.externals = [] ∧ ∀ b ∈ l.take j, isExternal b = false) := by
    intro s l
    induction l generalizing s with
    | nil => intro k; simp [performAll]
    | cons x l ih =>
      intro k
      obtain ⟨hid, h, he⟩ := perform_spec s x
      simp only [performAll]
      rw [ih, hid, he]
      constructor
      · rintro (hk | ⟨j, a, ha, hk, hx⟩)
        · rcases h with ⟨_, h2, h3⟩ | ⟨_, h2, _⟩
          · rw [h2, List.mem_append, List.mem_singleton] at hk
            rcases hk with hk | hk
            · exact .inl hk
            · exact .inr ⟨0, x, rfl, hk, fun h => ⟨h3 h, by simp⟩⟩
          · rw [h2] at hk; exact .inl hk
        · refine .inr ⟨j + 1, a, ha, hk, fun h => ?_⟩
          obtain ⟨⟨h1, h2⟩, h3⟩ := hx h
          refine ⟨h1, ?_⟩
          simp only [List.take_succ_cons, List.mem_cons, forall_eq_or_imp]
          exact ⟨h2, h3⟩
      · rintro (hk | ⟨j, a, ha, hk, hx⟩)
        · left
          rcases h with ⟨_, h2, _⟩ | ⟨_, h2, _⟩
          · rw [h2]; exact List.mem_append_left _ hk
          · rw [h2]; exact hk
        · cases j with
          | zero =>
            simp only [List.getElem?_cons_zero, Option.some.injEq] at ha
            subst ha
            left
            rcases h with ⟨_, h2, _⟩ | ⟨_, _, h3, h4⟩
            · rw [h2, hk]; simp
            · exact absurd (hx h3).1 h4
          | succ j =>
            right
            refine ⟨j, a, ha, hk, fun h => ?_⟩
            obtain ⟨h1, h2⟩ := hx h
            simp only [List.take_succ_cons, List.mem_cons, forall_eq_or_imp] at h2
            exact ⟨⟨h1, h2.1⟩, h2.2⟩
  have hid : (performAll (⟨id, [], []⟩ : System R Ctx) l).1.id = id := (performAll_prefix _ l).1
  -- the checks of each of them
  have hin : ∀ k, Add.internal k ∈ l → ∀ f values, k.fn = some f → f c = .ok values →
      (Meets tol k.bounds.lower k.bounds.upper values → checkSatisfied idOf (asked id (.internal k)) c tol = .ok true) ∧
      (¬ Meets tol k.bounds.lower k.bounds.upper values → checkSatisfied idOf (asked id (.internal k)) c tol = .ok false) := by
    intro k hk f values hf hv
    obtain ⟨hm, f', values', hf', hv', hs⟩ := hint k hk
    cases hf.symm.trans hf'
    cases hv.symm.trans hv'
    have := constraint_satisfied idOf (asked id (.internal k)) hm c (by intro i hi; simp only [asked, Option.some.injEq] at hi; rw [← hi, hc])
      f hf values hv hs tol ht
    exact ⟨this.1, this.2.1⟩
  have hex : ∀ (e : External R Ctx) f values, Add.external e ∈ l → e.fn = some f → f c = .ok values →
      (Meets tol e.bounds.lower e.bounds.upper values → checkSatisfied idOf (asked id (.external e)) c tol = .ok true) ∧
      (¬ Meets tol e.bounds.lower e.bounds.upper values → checkSatisfied idOf (asked id (.external e)) c tol = .ok false) := by
    intro e f values he hf hv
    obtain ⟨hm, values', hv', hs⟩ := hext e f he hf
    cases hv.symm.trans hv'
    obtain ⟨d, b, _⟩ := e
    simp only at hf
    subst hf
    have := constraint_satisfied idOf (asked id (.external ⟨d, b, some f⟩)) hm c (by simp [asked]) f rfl values hv hs tol ht
    exact ⟨this.1, this.2.1⟩
  have hoff : ∀ e : External R Ctx, e.fn = none → checkSatisfied idOf (asked id (.external e)) c tol = .ok true := by
    rintro ⟨d, b, _⟩ hf
    simp only at hf
    subst hf
    refine (constraint_satisfied idOf (asked id (.external ⟨d, b, none⟩)) Made.default c (by simp [asked]) _ rfl [] rfl rfl tol ht).1 ?_
    intro i l u v _ _ hv
    simp at hv
  have hok : ∀ k ∈ (performAll (⟨id, [], []⟩ : System R Ctx) l).1.constraints, ∃ r, checkSatisfied idOf k c tol = .ok r := by
    intro k hk
    rw [hall] at hk
    rcases hk with hk | ⟨j, a, ha, rfl, _⟩
    · simp at hk
    · have hm := List.mem_of_getElem? ha
      cases a with
      | internal k =>
        obtain ⟨_, f, values, hf, hv, _⟩ := hint k hm
        have := hin k hm f values hf hv
        by_cases h : Meets tol k.bounds.lower k.bounds.upper values
        · exact ⟨_, this.1 h⟩
        · exact ⟨_, this.2 h⟩
      | external e =>
        cases hf : e.fn with
        | none => exact ⟨_, hoff e hf⟩
        | some f =>
          obtain ⟨_, values, hv, _⟩ := hext e f hm hf
          have := hex e f values hm hf hv
          by_cases h : Meets tol e.bounds.lower e.bounds.upper values
          · exact ⟨_, this.1 h⟩
          · exact ⟨_, this.2 h⟩
  have hsome : ∀ m : List (Constraint R Ctx), (∀ k ∈ m, ∃ r, checkSatisfied idOf k c tol = .ok r) → ∃ r, checkAll idOf c tol m = .ok r := by
    intro m
    induction m with
    | nil => exact fun _ => ⟨true, rfl⟩
    | cons k m ih =>
      intro h
      obtain ⟨r, hr⟩ := h k (by simp)
      obtain ⟨r', hr'⟩ := ih fun k' hk' => h k' (by simp [hk'])
      cases r
      · exact ⟨false, by simp [checkAll, hr, bind, Except.bind, pure, Except.pure]⟩
      · exact ⟨r', by simp [checkAll, hr, hr', bind, Except.bind]⟩
  obtain ⟨r, hr⟩ := hsome _ hok
  have hsys : checkSystem idOf (performAll ⟨id, [], []⟩ l).1 c tol = .ok r := by
    simp [checkSystem, hid, hc, throwUnless, demand, ht, bind, Except.bind, hr]
  refine ⟨r, hsys, ?_⟩
  have htrue : r = true ↔ ∀ k ∈ (performAll (⟨id, [], []⟩ : System R Ctx) l).1.constraints, checkSatisfied idOf k c tol = .ok true := by
    rw [← checkAll_true, hr]; simp
  rw [htrue]
  constructor
  · intro h
    constructor
    · intro j k f values hj hb hf hv
      by_contra hn
      have := h (asked id (.internal k)) ((hall _ _ _).mpr (.inr ⟨j, _, hj, rfl, fun _ => ⟨rfl, hb⟩⟩))
      rw [(hin k (List.mem_of_getElem? hj) f values hf hv).2 hn] at this
      cases this
    · intro e f values he hf hv
      by_contra hn
      obtain ⟨j, hj⟩ := List.getElem?_of_mem he
      have := h (asked id (.external e)) ((hall _ _ _).mpr (.inr ⟨j, _, hj, rfl, nofun⟩))
      rw [(hex e f values he hf hv).2 hn] at this
      cases this
  · rintro ⟨h1, h2⟩ k hk
    rw [hall] at hk
    rcases hk with hk | ⟨j, a, ha, rfl, hx⟩
    · simp at hk
    · have hm := List.mem_of_getElem? ha
      cases a with
      | internal k =>
        obtain ⟨_, f, values, hf, hv, _⟩ := hint k hm
        exact (hin k hm f values hf hv).1 (h1 j k f values ha (hx rfl).2 hf hv)
      | external e =>
        cases hf : e.fn with
        | none => exact hoff e hf
        | some f =>
          obtain ⟨_, values, hv, _⟩ := hext e f hm hf
          exact (hex e f values hm hf hv).1 (h2 e f values hm hf hv)

/-- An element of a vector with a finite bound. -/
def Bounded (l u : Bound R) : Prop := (∃ x, l = .fin x) ∨ ∃ x, u = .fin x

theorem isInf_false (b : Bound R) : b.isInf = false ↔ ∃ x, b = .fin x := by cases b <;> simp [Bound.isInf]

/-- Bounds on the elements of a model vector: nothing is declared when all of them are infinite; the declaration throws and changes
nothing when a bounded element has its lower bound above its upper one, or when each bounded element is fixed and one of them not at
zero; otherwise one constraint is added at the end. -/
theorem vector_constraint_declared (s : System R Ctx) (hs : s.externals = []) (kind : String) (lower upper : List (Bound R))
    (h : lower.length = upper.length) (vector : Ctx → Except Err (List R)) :
    ((∀ (i : Nat) (l u : Bound R), lower[i]? = some l → upper[i]? = some u → ¬ Bounded l u) →
      maybeDeclareVector s kind lower.length lower upper vector = (s, .ok none)) ∧
    ((∃ (i : Nat) (l u : Bound R), lower[i]? = some l ∧ upper[i]? = some u ∧ Bounded l u) →
      (∃ (i : Nat) (l u : Bound R), lower[i]? = some l ∧ upper[i]? = some u ∧ Bounded l u ∧ ¬ val l ≤ val u) ∨
        ((∀ (i : Nat) (l u : Bound R), lower[i]? = some l → upper[i]? = some u → Bounded l u → l = u) ∧
          ∃ (i : Nat) (l u : Bound R), lower[i]? = some l ∧ upper[i]? = some u ∧ Bounded l u ∧ l ≠ .fin 0) →
      maybeDeclareVector s kind lower.length lower upper vector = (s, .error .throws)) ∧
    ((∃ (i : Nat) (l u : Bound R), lower[i]? = some l ∧ upper[i]? = some u ∧ Bounded l u) →
      (∀ (i : Nat) (l u : Bound R), lower[i]? = some l → upper[i]? = some u → Bounded l u → val l ≤ val u) →
      ((∃ (i : Nat) (l u : Bound R), lower[i]? = some l ∧ upper[i]? = some u ∧ Bounded l u ∧ l ≠ u) ∨
          ∀ (i : Nat) (l u : Bound R), lower[i]? = some l → upper[i]? = some u → Bounded l u → l = .fin 0) →
      ∃ k, k.systemId = some s.id ∧ k.description = kind ∧
        maybeDeclareVector s kind lower.length lower upper vector =
          ({ s with constraints := s.constraints ++ [k] }, .ok (some s.constraints.length))) := by
  rw [maybeDeclareVector_eq s kind lower upper h vector]
  have hmem : ∀ i, i ∈ bounded lower upper ↔ ∃ l u, lower[i]? = some l ∧ upper[i]? = some u ∧ Bounded l u := by
    intro i
    rw [mem_bounded h]
    simp only [isInf_false, Bounded]
  have hlt : ∀ i ∈ bounded lower upper, i < lower.length := by
    intro i hi
    obtain ⟨_, _, hl, _⟩ := (hmem i).mp hi
    exact (List.getElem?_eq_some_iff.mp hl).1
  have hlt' : ∀ i ∈ bounded lower upper, i < upper.length := h ▸ hlt
  have hlen : (only lower (bounded lower upper)).length = (only upper (bounded lower upper)).length := by simp [only]
  have hget : ∀ (i : Nat) (l u : Bound R), lower[i]? = some l → upper[i]? = some u → Bounded l u →
      ∃ j : Nat, (only lower (bounded lower upper))[j]? = some l ∧ (only upper (bounded lower upper))[j]? = some u := by
    intro i l u hl hu hb
    obtain ⟨j, hj⟩ := List.getElem?_of_mem ((hmem i).mpr ⟨l, u, hl, hu, hb⟩)
    exact ⟨j, (only_getElem? _ _ hlt j l).mpr ⟨i, hj, hl⟩, (only_getElem? _ _ hlt' j u).mpr ⟨i, hj, hu⟩⟩
  have hback : ∀ (j : Nat) l u, (only lower (bounded lower upper))[j]? = some l → (only upper (bounded lower upper))[j]? = some u →
      ∃ i : Nat, lower[i]? = some l ∧ upper[i]? = some u ∧ Bounded l u := by
    intro j l u hl hu
    obtain ⟨i, hi, hl'⟩ := (only_getElem? _ _ hlt j l).mp hl
    obtain ⟨i', hi', hu'⟩ := (only_getElem? _ _ hlt' j u).mp hu
    cases hi.symm.trans hi'
    obtain ⟨l', u', a, b, hb⟩ := (hmem i).mp (List.mem_of_getElem? hi)
    cases hl'.symm.trans a
    cases hu'.symm.trans b
    exact ⟨i, hl', hu', hb⟩
  have hne : (∃ (i : Nat) (l u : Bound R), lower[i]? = some l ∧ upper[i]? = some u ∧ Bounded l u) → bounded lower upper ≠ [] := by
    rintro ⟨i, l, u, hl, hu, hb⟩ he
    have := (hmem i).mpr ⟨l, u, hl, hu, hb⟩
    rw [he] at this
    simp at this
  refine ⟨fun hno => ?_, fun hsome hbad => ?_, fun hsome hle hgood => ?_⟩
  · rw [if_pos]
    rw [List.eq_nil_iff_forall_not_mem]
    intro i hi
    obtain ⟨l, u, hl, hu, hb⟩ := (hmem i).mp hi
    exact hno i l u hl hu hb
  · rw [if_neg (hne hsome)]
    rw [(constraint_bounds _ _).2 ?_]
    rintro ⟨_, h2, h3⟩
    rcases hbad with ⟨i, l, u, hl, hu, hb, hbad⟩ | ⟨heq, i, l, u, hl, hu, hb, hbad⟩
    · obtain ⟨j, a, b⟩ := hget i l u hl hu hb
      exact hbad (h2 j l u a b)
    · rcases h3 with h3 | h3
      · apply h3
        apply List.ext_getElem? 
        intro j
        by_cases hj : j < (only lower (bounded lower upper)).length
        · have hj' := hlen ▸ hj
          obtain ⟨i, a, b, hb⟩ := hback j _ _ (List.getElem?_eq_getElem hj) (List.getElem?_eq_getElem hj')
          rw [List.getElem?_eq_getElem hj, List.getElem?_eq_getElem hj', heq i _ _ a b hb]
        · rw [List.getElem?_eq_none (by omega), List.getElem?_eq_none (by omega)]
      · obtain ⟨j, a, _⟩ := hget i l u hl hu hb
        exact hbad (h3 l (List.mem_of_getElem? a))
  · rw [if_neg (hne hsome)]
    obtain ⟨b, hb, _⟩ := (constraint_bounds (only lower (bounded lower upper)) (only upper (bounded lower upper))).1
      ⟨hlen, fun j l u hl hu => by obtain ⟨i, a, b, c⟩ := hback j l u hl hu; exact hle i l u a b c, by
        rcases hgood with ⟨i, l, u, hl, hu, hb, hne'⟩ | hz
        · left
          intro he
          obtain ⟨j, a, b⟩ := hget i l u hl hu hb
          rw [he] at a
          cases a.symm.trans b
          exact hne' rfl
        · right
          intro x hx
          obtain ⟨j, hj⟩ := List.getElem?_of_mem hx
          have hj' : j < (only upper (bounded lower upper)).length := hlen ▸ (List.getElem?_eq_some_iff.mp hj).1
          obtain ⟨i, a, b, c⟩ := hback j x _ hj (List.getElem?_eq_getElem hj')
          exact hz i _ _ a b c⟩
    refine ⟨⟨some fun c => do pick (← vector c) (bounded lower upper), b, kind, some s.id⟩, rfl, rfl, ?_⟩
    rw [hb]
    simp [declareInequality, addConstraint, hs]

/-- The constraint that is declared for a vector is satisfied exactly when each bounded element lies between its bounds, up to the
tolerance. -/
theorem vector_constraint_means (s s' : System R Ctx) (kind : String) (lower upper : List (Bound R))
    (h : lower.length = upper.length) (vector : Ctx → Except Err (List R)) (n : Nat)
    (hd : maybeDeclareVector s kind lower.length lower upper vector = (s', .ok (some n))) :
    ∃ k, getConstraint s' n = .ok k ∧ ∀ (c : Ctx) (tol : R), idOf c = s.id → 0 ≤ tol →
      (∀ e, vector c = .error e → checkSatisfied idOf k c tol = .error e) ∧
      (∀ x, vector c = .ok x → x.length = lower.length →
        ∃ r, checkSatisfied idOf k c tol = .ok r ∧
          (r = true ↔ ∀ (i : Nat) (l u : Bound R) (v : R), lower[i]? = some l → upper[i]? = some u → x[i]? = some v →
            Bounded l u → Between tol l u v) ∧
          ((∀ l ∈ lower, l ≠ .posInf) → (∀ u ∈ upper, u ≠ .negInf) → (r = true ↔ Meets tol lower upper x))) := by
  rw [maybeDeclareVector_eq s kind lower upper h vector] at hd
  split at hd
  · simp at hd
  cases hb : bounds (only lower (bounded lower upper)) (only upper (bounded lower upper)) with
  | error e => rw [hb] at hd; simp at hd
  | ok b =>
    rw [hb] at hd
    simp only [declareInequality, addConstraint] at hd
    by_cases hs : s.externals ≠ []
    · rw [if_pos hs] at hd; simp at hd
    rw [if_neg hs] at hd
    simp only [Prod.mk.injEq, Except.ok.injEq, Option.some.injEq] at hd
    obtain ⟨rfl, rfl⟩ := hd
    refine ⟨⟨some fun c => do pick (← vector c) (bounded lower upper), b, kind, some s.id⟩, ?_, ?_⟩
    · have hlt : ¬ ((s.constraints.length : Int) < 0 ∨
          ((s.constraints ++ [(⟨some fun c => do pick (← vector c) (bounded lower upper), b, kind, some s.id⟩ : Constraint R Ctx)]).length : Int)
            ≤ (s.constraints.length : Int)) := by
        simp only [List.length_append, List.length_singleton]; omega
      simp only [getConstraint]
      rw [if_neg hlt]
      simp
    · intro c tol hc ht
      have hmem : ∀ i, i ∈ bounded lower upper ↔ ∃ l u, lower[i]? = some l ∧ upper[i]? = some u ∧ Bounded l u := by
        intro i
        rw [mem_bounded h]
        simp only [isInf_false, Bounded]
      have hlt : ∀ i ∈ bounded lower upper, i < lower.length := by
        intro i hi
        obtain ⟨_, _, hl, _⟩ := (hmem i).mp hi
        exact (List.getElem?_eq_some_iff.mp hl).1
      have hlt' : ∀ i ∈ bounded lower upper, i < upper.length := h ▸ hlt
      have hmade : Made b := .both _ _ _ hb
      obtain ⟨hsz, _, _⟩ := made_sizes hmade
      have hbb : b.lower = only lower (bounded lower upper) ∧ b.upper = only upper (bounded lower upper) := by
        rw [bounds_ok] at hb
        rcases hb.2 with h | h
        · rw [h.2]; exact ⟨rfl, rfl⟩
        · rw [h.2.2]; exact ⟨rfl, rfl⟩
      refine ⟨fun e he => ?_, fun x hx hxl => ?_⟩
      · exact (((constraint_check_errors idOf (⟨some fun c => do pick (← vector c) (bounded lower upper), b, kind, some s.id⟩ :
          Constraint R Ctx) c tol).2.2 (by intro i hi; cases hi; exact hc.symm) ht).2 _ rfl).1 e (by simp [he, bind, Except.bind])
      · have hxlt : ∀ i ∈ bounded lower upper, i < x.length := hxl ▸ hlt
        have hval : (do pick (← vector c) (bounded lower upper)) = .ok ((bounded lower upper).map fun i => (x[i]?).getD 0) := by
          rw [hx]
          exact pick_ok 0 x _ hxlt
        have hsat := constraint_satisfied idOf (⟨some fun c => do pick (← vector c) (bounded lower upper), b, kind, some s.id⟩ :
          Constraint R Ctx) hmade c (by intro i hi; cases hi; exact hc.symm) _ rfl _ hval
          (by show _ = b.size; rw [← hsz, hbb.1]; simp [only]) tol ht
        have hm : Meets tol b.lower b.upper ((bounded lower upper).map fun i => (x[i]?).getD 0) ↔
            ∀ (i : Nat) (l u : Bound R) (v : R), lower[i]? = some l → upper[i]? = some u → x[i]? = some v →
              Bounded l u → Between tol l u v := by
          rw [hbb.1, hbb.2]
          constructor
          · intro hm i l u v hl hu hv hbd
            obtain ⟨j, hj⟩ := List.getElem?_of_mem ((hmem i).mpr ⟨l, u, hl, hu, hbd⟩)
            exact hm j l u v ((only_getElem? _ _ hlt j l).mpr ⟨i, hj, hl⟩) ((only_getElem? _ _ hlt' j u).mpr ⟨i, hj, hu⟩)
              (by rw [List.getElem?_map, hj]; simp [hv])
          · intro hm j l u v hl hu hv
            obtain ⟨i, hi, hl'⟩ := (only_getElem? _ _ hlt j l).mp hl
            obtain ⟨i', hi', hu'⟩ := (only_getElem? _ _ hlt' j u).mp hu
            cases hi.symm.trans hi'
            obtain ⟨l', u', a, b', hbd⟩ := (hmem i).mp (List.mem_of_getElem? hi)
            cases hl'.symm.trans a
            cases hu'.symm.trans b'
            have hil := hxlt i (List.mem_of_getElem? hi)
            rw [List.getElem?_map, hi, Option.map_some, List.getElem?_eq_getElem hil, Option.getD_some, Option.some.injEq] at hv
            exact hm i l u v hl' hu' (by rw [List.getElem?_eq_getElem hil, hv]) hbd
        have hr : ∃ r, checkSatisfied idOf (⟨some fun c => do pick (← vector c) (bounded lower upper), b, kind, some s.id⟩ :
            Constraint R Ctx) c tol = .ok r ∧
            (r = true ↔ Meets tol b.lower b.upper ((bounded lower upper).map fun i => (x[i]?).getD 0)) := by
          by_cases hmm : Meets tol b.lower b.upper ((bounded lower upper).map fun i => (x[i]?).getD 0)
          · exact ⟨true, hsat.1 hmm, by simp [hmm]⟩
          · exact ⟨false, hsat.2.1 hmm, by simp [hmm]⟩
        obtain ⟨r, hr, hiff⟩ := hr
        refine ⟨r, hr, hiff.trans hm, fun hlow hup => (hiff.trans hm).trans ?_⟩
        constructor
        · intro hb' i l u v hl hu hv
          by_cases hbd : Bounded l u
          · exact hb' i l u v hl hu hv hbd
          · have hl2 := hlow l (List.mem_of_getElem? hl)
            have hu2 := hup u (List.mem_of_getElem? hu)
            cases l with
            | posInf => exact absurd rfl hl2
            | fin a => exact absurd (.inl ⟨a, rfl⟩) hbd
            | negInf =>
              cases u with
              | negInf => exact absurd rfl hu2
              | fin a => exact absurd (.inr ⟨a, rfl⟩) hbd
              | posInf => exact ⟨bot_le, le_top⟩
        · intro hmm i l u v hl hu hv _
          exact hmm i l u v hl hu hv

end

section
open Maliput.SystemConstraint

/-- A vector whose only bound fixes an element at one: the declaration throws, though the bounds are consistent and the documentation of
`GetElementBounds` allows them.  Fixed at zero, or beside an element with an interval, it is accepted. -/
theorem vector_constraint_fixed_throws :
    maybeDeclareVector (⟨3, [], []⟩ : System ℚ (Nat × List ℚ)) "state" 2 [.fin 1, .negInf] [.fin 1, .posInf] (fun c => .ok c.2) =
      (⟨3, [], []⟩, .error .throws) ∧
    (maybeDeclareVector (⟨3, [], []⟩ : System ℚ (Nat × List ℚ)) "state" 2 [.fin 0, .negInf] [.fin 0, .posInf] (fun c => .ok c.2)).2 =
      .ok (some 0) ∧
    (maybeDeclareVector (⟨3, [], []⟩ : System ℚ (Nat × List ℚ)) "state" 2 [.fin 1, .negInf] [.fin 1, .fin 7] (fun c => .ok c.2)).2 =
      .ok (some 0) := by
  refine ⟨?_, by decide +kernel, by decide +kernel⟩
  exact (vector_constraint_declared (⟨3, [], []⟩ : System ℚ (Nat × List ℚ)) rfl "state" [.fin 1, .negInf] [.fin 1, .posInf] rfl
    (fun c => .ok c.2)).2.1 ⟨0, .fin 1, .fin 1, rfl, rfl, .inl ⟨1, rfl⟩⟩ (.inr ⟨by
      intro i l u hl hu hb
      match i with
      | 0 => cases hl; cases hu; rfl
      | 1 =>
        cases hl; cases hu
        rcases hb with ⟨x, hx⟩ | ⟨x, hx⟩ <;> cases hx
      | i + 2 => exact absurd hl (by simp), 0, .fin 1, .fin 1, rfl, rfl, .inl ⟨1, rfl⟩, by simp⟩)

/-- A constraint after one that is not satisfied is not looked at, even one that would throw. -/
theorem system_constraints_stop :
    checkSystem (Prod.fst : Nat × List ℚ → Nat)
      ⟨3, [⟨some fun c => .ok c.2, ⟨1, .equality, [.fin 0], [.fin 0]⟩, "zero", some 3⟩, ⟨none, zeroBounds 0, "none", some 3⟩], []⟩
      (3, [1]) 0 = .ok false ∧
    checkSystem (Prod.fst : Nat × List ℚ → Nat)
      ⟨3, [⟨some fun c => .ok c.2, ⟨1, .equality, [.fin 0], [.fin 0]⟩, "zero", some 3⟩, ⟨none, zeroBounds 0, "none", some 3⟩], []⟩
      (3, [0]) 0 = .error .throws := by
  constructor <;> decide +kernel

/-- Internal constraints, an external one with and one without a function, and an internal one too late. -/
def springAdds : List (Add ℚ (Nat × List ℚ)) :=
  [.internal ⟨some fun c => .ok c.2, ⟨2, .inequality, [.fin 0, .negInf], [.fin 5, .fin 9]⟩, "range", none⟩,
   .internal ⟨some fun c => .ok (c.2.take 1), ⟨1, .equality, [.fin 0], [.fin 0]⟩, "zero", none⟩,
   .external ⟨"far", ⟨1, .inequality, [.fin 2], [.posInf]⟩, some fun c => .ok (c.2.drop 1)⟩,
   .external ⟨"off", ⟨1, .inequality, [.fin 2], [.posInf]⟩, none⟩,
   .internal ⟨some fun c => .ok c.2, ⟨2, .inequality, [.fin 100, .negInf], [.fin 500, .fin 9]⟩, "late", none⟩]

example : (performAll ⟨3, [], []⟩ springAdds).2 = [.ok 0, .ok 1, .ok 2, .ok 3, .error .throws] := by decide +kernel
example : checkSystem Prod.fst (performAll ⟨3, [], []⟩ springAdds).1 (3, [0, 4]) 0 = .ok true := by decide +kernel
example : checkSystem Prod.fst (performAll ⟨3, [], []⟩ springAdds).1 (3, [-1/2, 19/2]) (1/2) = .ok true := by decide +kernel
example : checkSystem Prod.fst (performAll ⟨3, [], []⟩ springAdds).1 (3, [-1/2, 19/2]) (1/4) = .ok false := by decide +kernel
example : checkSystem Prod.fst (performAll ⟨3, [], []⟩ springAdds).1 (3, [0, 1]) (1/4) = .ok false := by decide +kernel

/-- The hypotheses of `constraints_whole` and `constraint_satisfied` hold for them. -/
example : (∀ k, Add.internal k ∈ springAdds → Made k.bounds ∧ ∃ f values, k.fn = some f ∧ f (3, [0, 4]) = .ok values ∧
      values.length = k.bounds.size) ∧
    (∀ e f, Add.external e ∈ springAdds → e.fn = some f → Made e.bounds ∧ ∃ values, f (3, [0, 4]) = .ok values ∧
      values.length = e.bounds.size) := by
  constructor
  · intro k hk
    simp only [springAdds, List.mem_cons, Add.internal.injEq, reduceCtorEq, List.not_mem_nil, or_false, false_or] at hk
    rcases hk with rfl | rfl | rfl
    · exact ⟨.both [.fin 0, .negInf] [.fin 5, .fin 9] _ (by decide +kernel), _, [0, 4], rfl, rfl, rfl⟩
    · exact ⟨.equality 1 _ (by decide +kernel), _, [0], rfl, rfl, rfl⟩
    · exact ⟨.both [.fin 100, .negInf] [.fin 500, .fin 9] _ (by decide +kernel), _, [0, 4], rfl, rfl, rfl⟩
  · intro e f he hf
    simp only [springAdds, List.mem_cons, Add.external.injEq, reduceCtorEq, List.not_mem_nil, or_false, false_or] at he
    rcases he with rfl | rfl
    · cases hf
      exact ⟨.lower [.fin 2] _ (by decide +kernel), [4], rfl, rfl⟩
    · cases hf

example : (maybeDeclareVector (⟨3, [], []⟩ : System ℚ (Nat × List ℚ)) "state" 3 [.fin 1, .negInf, .negInf] [.fin 2, .posInf, .fin 9]
    (fun c => .ok c.2)).2 = .ok (some 0) := by decide +kernel
example : bounds [.fin (2 : ℚ)] [.fin 1] = .error .throws ∧ bounds [.fin (1 : ℚ)] [.fin 1] = .error .throws ∧
    bounds [.fin (1 : ℚ)] [] = .error .throws ∧ bounds ([] : List (Bound ℚ)) [] = .ok ⟨0, .equality, [], []⟩ := by decide +kernel

end

end Maliput.Props
