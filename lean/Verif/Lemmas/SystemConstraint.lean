import Verif.Spec.SystemConstraint
import Verif.Lemmas.Monad
import Mathlib.Tactic.Linarith

set_option autoImplicit false
set_option linter.unusedSectionVars false

/-! Helper lemmas about constraints of systems. -/
namespace Maliput.SystemConstraint

open Maliput Spec

variable {R Ctx : Type} [Field R] [LinearOrder R] [IsStrictOrderedRing R]

theorem num_le {a b : R} : num a ≤ num b ↔ a ≤ b := by simp [num]

theorem le_iff (a b : Bound R) : a.le b = true ↔ val a ≤ val b := by
  cases a <;> cases b <;> simp [Bound.le, val, num]

theorem val_inj {a b : Bound R} : val a = val b ↔ a = b := by
  refine ⟨fun h => ?_, fun h => by rw [h]⟩
  cases a <;> cases b <;> simp_all [val, num]

theorem above_iff (tol v : R) (l : Bound R) : aboveWithin tol v l = true ↔ val l ≤ num (v + tol) := by
  cases l with
  | negInf => simp [aboveWithin, val]
  | fin x => simp only [aboveWithin, val, num_le, decide_eq_true_eq]; constructor <;> intro h <;> linarith
  | posInf =>
    have := le_iff (R := R) .posInf (.fin (v + tol))
    simpa [aboveWithin, Bound.le, val] using this

theorem below_iff (tol v : R) (u : Bound R) : belowWithin tol v u = true ↔ num (v - tol) ≤ val u := by
  cases u with
  | posInf => simp [belowWithin, val]
  | fin x => simp only [belowWithin, val, num_le, decide_eq_true_eq]; constructor <;> intro h <;> linarith
  | negInf => simp [belowWithin, val, num]

theorem zip_all {α β : Type} (l : List α) (m : List β) (p : α × β → Bool) :
    (l.zip m).all p = true ↔ ∀ (i : Nat) (a : α) (b : β), l[i]? = some a → m[i]? = some b → p (a, b) = true := by
  rw [List.all_eq_true]
  constructor
  · intro h i a b ha hb
    apply h
    apply List.mem_of_getElem? (i := i)
    rw [List.getElem?_zip_eq_some]
    exact ⟨ha, hb⟩
  · rintro h ⟨a, b⟩ hm
    obtain ⟨i, hi⟩ := List.getElem?_of_mem hm
    rw [List.getElem?_zip_eq_some] at hi
    exact h i a b hi.1 hi.2

theorem zip_any {α : Type} [DecidableEq α] (l m : List α) (h : l.length = m.length) :
    ((l.zip m).any fun p => decide (p.1 ≠ p.2)) = true ↔ l ≠ m := by
  induction l generalizing m with
  | nil => cases m <;> simp_all
  | cons a l ih =>
    cases m with
    | nil => simp at h
    | cons b m =>
      have := ih m (by simpa using h)
      simp only [List.zip_cons_cons, List.any_cons, Bool.or_eq_true, this]
      by_cases hab : a = b <;> simp [hab]

theorem all_zero (l : List (Bound R)) : (l.all fun b => decide (b = .fin 0)) = true ↔ ∀ b ∈ l, b = .fin 0 := by simp

/-- What the constructor with both bounds accepts. -/
theorem bounds_ok (lower upper : List (Bound R)) (b : Bounds R) : bounds lower upper = .ok b ↔
    (lower.length = upper.length ∧ (∀ (i : Nat) (l u : Bound R), lower[i]? = some l → upper[i]? = some u → val l ≤ val u)) ∧
    ((lower ≠ upper ∧ b = ⟨lower.length, .inequality, lower, upper⟩) ∨
     (lower = upper ∧ (∀ x ∈ lower, x = .fin 0) ∧ b = ⟨lower.length, .equality, lower, upper⟩)) := by
  simp only [bounds, boundsToType, bind, Except.bind, throwUnless]
  by_cases h1 : lower.length = upper.length
  · simp only [h1, decide_true, if_true, true_and]
    have key : ((lower.zip upper).all fun p => p.1.le p.2) = true ↔
        ∀ (i : Nat) (l u : Bound R), lower[i]? = some l → upper[i]? = some u → val l ≤ val u := by
      rw [zip_all]; simp only [le_iff]
    by_cases h2 : ((lower.zip upper).all fun p => p.1.le p.2) = true
    · simp only [h2, if_true]
      rw [and_iff_right (key.mp h2)]
      by_cases h3 : lower = upper
      · have h4 : ¬ ((lower.zip upper).any fun p => decide (p.1 ≠ p.2)) = true := by rw [zip_any _ _ h1]; simp [h3]
        rw [if_neg h4]
        subst h3
        by_cases h5 : ∀ x ∈ lower, x = .fin 0
        · have := (all_zero lower).mpr h5
          simp only [this, if_true, pure, Except.pure]
          constructor
          · intro h; cases h; exact .inr ⟨trivial, h5, rfl⟩
          · rintro (h | h)
            · exact absurd rfl h.1
            · rw [h.2.2]
        · have : ¬ (lower.all fun b => decide (b = .fin 0)) = true := fun h => h5 ((all_zero lower).mp h)
          simp only [this]
          constructor
          · intro h; simp at h
          · rintro (h | h)
            · exact absurd rfl h.1
            · exact absurd h.2.1 h5
      · have h4 : ((lower.zip upper).any fun p => decide (p.1 ≠ p.2)) = true := by rw [zip_any _ _ h1]; exact h3
        rw [if_pos h4]
        constructor
        · intro h; cases h; exact .inl ⟨h3, rfl⟩
        · rintro (h | h)
          · rw [h.2]; simp [pure, Except.pure]
          · exact absurd h.1 h3
    · simp only [h2]
      constructor
      · intro h; simp at h
      · intro h; exact absurd (key.mpr h.1) h2
  · simp only [h1, decide_false, false_and]
    constructor
    · intro h; simp at h
    · exact False.elim

/-- Bounds from the constructors: sizes agree, and an equality has only zeros. -/
theorem made_sizes {b : Bounds R} (h : Made b) :
    b.lower.length = b.size ∧ b.upper.length = b.size ∧
      (b.kind = .equality → (∀ x ∈ b.lower, x = .fin 0) ∧ ∀ x ∈ b.upper, x = .fin 0) := by
  have key : ∀ (lower upper : List (Bound R)), bounds lower upper = .ok b → b.lower.length = b.size ∧ b.upper.length = b.size ∧
      (b.kind = .equality → (∀ x ∈ b.lower, x = .fin 0) ∧ ∀ x ∈ b.upper, x = .fin 0) := by
    intro lower upper h
    rw [bounds_ok] at h
    obtain ⟨⟨h1, _⟩, h | h⟩ := h
    · rw [h.2]; exact ⟨rfl, h1.symm, nofun⟩
    · rw [h.2.2]; exact ⟨rfl, h1.symm, fun _ => ⟨h.2.1, h.1 ▸ h.2.1⟩⟩
  have zero : ∀ n, b = zeroBounds n → b.lower.length = b.size ∧ b.upper.length = b.size ∧
      (b.kind = .equality → (∀ x ∈ b.lower, x = .fin 0) ∧ ∀ x ∈ b.upper, x = .fin 0) := by
    intro n h
    subst h
    simp only [zeroBounds, List.length_replicate, true_and]
    exact fun _ => ⟨fun x hx => List.eq_of_mem_replicate hx, fun x hx => List.eq_of_mem_replicate hx⟩
  cases h with
  | both lower upper _ h => exact key _ _ h
  | lower lower _ h => exact key _ _ h
  | upper upper _ h => exact key _ _ h
  | equality size _ h =>
    simp only [SystemConstraint.equality, bind_ok, throwUnless_ok, pure_ok] at h
    obtain ⟨_, _, h⟩ := h
    exact zero _ h.symm
  | default => exact zero 0 rfl

/-- The comparison that a check makes, as a function of the values. -/
def judge (b : Bounds R) (tol : R) (value : List R) : Bool :=
  match b.kind with
  | .equality => if tol = 0 then value.all fun v => v = 0 else value.all fun v => |v| ≤ tol
  | .inequality =>
    if tol = 0 then
      ((value.zip b.lower).all fun p => p.2.le (.fin p.1)) && (value.zip b.upper).all fun p => Bound.le (.fin p.1) p.2
    else
      ((value.zip b.lower).all fun p => aboveWithin tol p.1 p.2) && (value.zip b.upper).all fun p => belowWithin tol p.1 p.2

theorem judge_iff {b : Bounds R} (hb : Made b) {tol : R} (h0 : 0 ≤ tol) {value : List R} (hl : value.length = b.size) :
    judge b tol value = true ↔ Meets tol b.lower b.upper value := by
  obtain ⟨h1, h2, h3⟩ := made_sizes hb
  unfold judge
  cases hk : b.kind with
  | equality =>
    obtain ⟨hz, hz'⟩ := h3 hk
    have e : (if tol = 0 then value.all fun v => decide (v = 0) else value.all fun v => decide (|v| ≤ tol)) =
        value.all fun v => decide (|v| ≤ tol) := by
      split
      · next h => subst h; simp
      · rfl
    dsimp only
    rw [e, List.all_eq_true]
    constructor
    · intro h i l u v hl hu hv
      have hv' := of_decide_eq_true (h v (List.mem_of_getElem? hv))
      rw [hz l (List.mem_of_getElem? hl), hz' u (List.mem_of_getElem? hu)]
      rw [abs_le] at hv'
      exact ⟨num_le.mpr (by linarith [hv'.1]), num_le.mpr (by linarith [hv'.2])⟩
    · intro h v hv
      obtain ⟨i, hi⟩ := List.getElem?_of_mem hv
      have hlt : i < value.length := (List.getElem?_eq_some_iff.mp hi).1
      have hlow : i < b.lower.length := by omega
      have hup : i < b.upper.length := by omega
      have := h i _ _ v (List.getElem?_eq_getElem hlow) (List.getElem?_eq_getElem hup) hi
      rw [hz _ (List.getElem_mem hlow), hz' _ (List.getElem_mem hup)] at this
      have a := num_le.mp this.1
      have c := num_le.mp this.2
      exact decide_eq_true (abs_le.mpr ⟨by linarith, by linarith⟩)
  | inequality =>
    have e : (if tol = 0 then
          ((value.zip b.lower).all fun p => p.2.le (.fin p.1)) && (value.zip b.upper).all fun p => Bound.le (.fin p.1) p.2
        else
          ((value.zip b.lower).all fun p => aboveWithin tol p.1 p.2) && (value.zip b.upper).all fun p => belowWithin tol p.1 p.2) =
        (((value.zip b.lower).all fun p => aboveWithin tol p.1 p.2) && (value.zip b.upper).all fun p => belowWithin tol p.1 p.2) := by
      split
      · next h =>
        subst h
        congr 2
        · funext p
          rw [Bool.eq_iff_iff, le_iff, above_iff, add_zero]
          rfl
        · funext p
          rw [Bool.eq_iff_iff, le_iff, below_iff, sub_zero]
          rfl
      · rfl
    dsimp only
    rw [e, Bool.and_eq_true, zip_all, zip_all]
    simp only [above_iff, below_iff]
    constructor
    · rintro ⟨ha, hb'⟩ i l u v hl hu hv
      exact ⟨ha i v l hv hl, hb' i v u hv hu⟩
    · intro h
      refine ⟨fun i v l hv hl' => ?_, fun i v u hv hu => ?_⟩
      · have hlt : i < b.upper.length := by
          have := (List.getElem?_eq_some_iff.mp hv).1
          omega
        exact (h i l _ v hl' (List.getElem?_eq_getElem hlt) hv).1
      · have hlt : i < b.lower.length := by
          have := (List.getElem?_eq_some_iff.mp hv).1
          omega
        exact (h i _ u v (List.getElem?_eq_getElem hlt) hu hv).2

variable (idOf : Ctx → Nat)

/-- A check is the computation of the values and the comparison. -/
theorem check_eq (k : Constraint R Ctx) (c : Ctx) (tol : R) : checkSatisfied idOf k c tol =
    (do validate idOf k c; demand (0 ≤ tol); let value ← calcValue idOf k c; return judge k.bounds tol value) := by
  unfold checkSatisfied judge
  congr 1; funext _; congr 1; funext _; congr 1; funext value
  cases k.bounds.kind with
  | equality => dsimp only; split <;> rfl
  | inequality => dsimp only; split <;> rfl

theorem demand_ok (b : Bool) (u : Unit) : demand b = .ok u ↔ b = true := by cases b <;> simp [demand]

theorem validate_ok (k : Constraint R Ctx) (c : Ctx) (u : Unit) :
    validate idOf k c = .ok u ↔ ∀ i, k.systemId = some i → i = idOf c := by
  unfold validate
  rw [demand_ok]
  cases k.systemId <;> simp

theorem calc_ok (k : Constraint R Ctx) (c : Ctx) (value : List R) : calcValue idOf k c = .ok value ↔
    (∀ i, k.systemId = some i → i = idOf c) ∧ ∃ f, k.fn = some f ∧ f c = .ok value ∧ value.length = k.bounds.size := by
  unfold calcValue
  simp only [bind_ok, validate_ok]
  cases hf : k.fn with
  | none => simp
  | some f =>
    simp only [bind_ok, demand_ok, pure_ok, decide_eq_true_eq]
    constructor
    · rintro ⟨_, hi, v, hv, _, hs, rfl⟩; exact ⟨hi, f, rfl, hv, hs⟩
    · rintro ⟨hi, _, hg, hv, hs⟩; cases hg; exact ⟨(), hi, value, hv, (), hs, rfl⟩

theorem check_ok (k : Constraint R Ctx) (c : Ctx) (tol : R) (r : Bool) : checkSatisfied idOf k c tol = .ok r ↔
    0 ≤ tol ∧ ∃ value, calcValue idOf k c = .ok value ∧ judge k.bounds tol value = r := by
  rw [check_eq]
  simp only [bind_ok, validate_ok, demand_ok, decide_eq_true_eq, pure_ok]
  constructor
  · rintro ⟨_, _, _, h0, v, hv, h⟩; exact ⟨h0, v, hv, h⟩
  · rintro ⟨h0, v, hv, h⟩; exact ⟨(), ((calc_ok idOf k c v).mp hv).1, (), h0, v, hv, h⟩

theorem checkAll_true (c : Ctx) (tol : R) (l : List (Constraint R Ctx)) :
    checkAll idOf c tol l = .ok true ↔ ∀ k ∈ l, checkSatisfied idOf k c tol = .ok true := by
  induction l with
  | nil => simp [checkAll]
  | cons k l ih =>
    simp only [checkAll, List.mem_cons, forall_eq_or_imp, ← ih]
    cases h : checkSatisfied idOf k c tol with
    | error e => simp [bind, Except.bind]
    | ok b => cases b <;> simp [bind, Except.bind, pure, Except.pure]

theorem checkAll_false (c : Ctx) (tol : R) (l : List (Constraint R Ctx)) :
    checkAll idOf c tol l = .ok false ↔
      ∃ i k, l[i]? = some k ∧ checkSatisfied idOf k c tol = .ok false ∧
        ∀ (j : Nat) (k' : Constraint R Ctx), j < i → l[j]? = some k' → checkSatisfied idOf k' c tol = .ok true := by
  induction l with
  | nil => simp [checkAll]
  | cons k l ih =>
    simp only [checkAll]
    cases h : checkSatisfied idOf k c tol with
    | error e =>
      simp only [bind, Except.bind]
      constructor
      · exact nofun
      · rintro ⟨i, k', hi, hk, hj⟩
        cases i with
        | zero => simp at hi; subst hi; rw [h] at hk; cases hk
        | succ i => have := hj 0 k (by omega) rfl; rw [h] at this; cases this
    | ok b =>
      cases b with
      | false =>
        simp only [bind, Except.bind, pure, Except.pure]
        exact ⟨fun _ => ⟨0, k, rfl, h, fun j _ hj => absurd hj (by omega)⟩, fun _ => rfl⟩
      | true =>
        simp only [bind, Except.bind, if_true]
        rw [ih]
        constructor
        · rintro ⟨i, k', hi, hk, hj⟩
          refine ⟨i + 1, k', hi, hk, fun j k'' hji hk'' => ?_⟩
          cases j with
          | zero => simp at hk''; subst hk''; exact h
          | succ j => exact hj j k'' (by omega) hk''
        · rintro ⟨i, k', hi, hk, hj⟩
          cases i with
          | zero => simp at hi; subst hi; rw [h] at hk; cases hk
          | succ i => exact ⟨i, k', hi, hk, fun j k'' hji hk'' => hj (j + 1) k'' (by omega) hk''⟩

/-- One call: the constraint is added at the end or nothing changes. -/
theorem perform_spec (s : System R Ctx) (a : Add R Ctx) :
    (perform s a).1.id = s.id ∧
    ((perform s a).2 = .ok s.constraints.length ∧ (perform s a).1.constraints = s.constraints ++ [asked s.id a] ∧
        (isExternal a = false → s.externals = []) ∨
      (perform s a).2 = .error .throws ∧ (perform s a).1 = s ∧ isExternal a = false ∧ s.externals ≠ []) ∧
    ((perform s a).1.externals = [] ↔ s.externals = [] ∧ isExternal a = false) := by
  cases a with
  | internal k =>
    simp only [perform, addConstraint, isExternal]
    by_cases h : s.externals = []
    · simp [h, asked]
    · simp [h]
  | external e =>
    obtain ⟨d, b, f⟩ := e
    cases f <;> simp [perform, addExternal, isExternal, asked]

theorem performAll_prefix (s : System R Ctx) (l : List (Add R Ctx)) :
    (performAll s l).1.id = s.id ∧ ∃ m, (performAll s l).1.constraints = s.constraints ++ m ∧
      m.length = ((performAll s l).2.filter accepted).length := by
  induction l generalizing s with
  | nil => exact ⟨rfl, [], by simp [performAll], rfl⟩
  | cons a l ih =>
    obtain ⟨hid, m, hm, hlen⟩ := ih (perform s a).1
    obtain ⟨hid', h, _⟩ := perform_spec s a
    refine ⟨hid.trans hid', ?_⟩
    rcases h with ⟨h1, h2, _⟩ | ⟨h1, h2, _, _⟩
    · refine ⟨asked s.id a :: m, ?_, ?_⟩
      · simp only [performAll]; rw [hm, h2]; simp
      · simp only [performAll, h1, List.filter_cons, accepted, if_true, List.length_cons, hlen]
    · refine ⟨m, ?_, ?_⟩
      · simp only [performAll]; rw [hm, h2]
      · simp only [performAll, h1, List.filter_cons, accepted, hlen]; rfl

theorem performAll_at (s : System R Ctx) (l : List (Add R Ctx)) (j : Nat) (a : Add R Ctx) (r : Except Err Nat)
    (ha : l[j]? = some a) (hr : (performAll s l).2[j]? = some r) :
    (r = .ok (s.constraints.length + (((performAll s l).2.take j).filter accepted).length) ∧
        (performAll s l).1.constraints[s.constraints.length + (((performAll s l).2.take j).filter accepted).length]? = some (asked s.id a) ∧
        (isExternal a = false → s.externals = [] ∧ ∀ b ∈ l.take j, isExternal b = false)) ∨
      (r = .error .throws ∧ isExternal a = false ∧ ¬ (s.externals = [] ∧ ∀ b ∈ l.take j, isExternal b = false)) := by
  induction l generalizing s j with
  | nil => simp at ha
  | cons x l ih =>
    obtain ⟨hid, h, he⟩ := perform_spec s x
    cases j with
    | zero =>
      simp only [List.getElem?_cons_zero, Option.some.injEq] at ha
      subst ha
      simp only [performAll, List.getElem?_cons_zero, Option.some.injEq] at hr
      subst hr
      rcases h with ⟨h1, h2, h3⟩ | ⟨h1, h2, h3, h4⟩
      · left
        obtain ⟨_, m, hm, _⟩ := performAll_prefix (perform s x).1 l
        refine ⟨by simpa using h1, ?_, fun h => ⟨h3 h, by simp⟩⟩
        simp only [performAll, List.take_zero, List.filter_nil, List.length_nil, Nat.add_zero]
        rw [hm, h2]
        simp
      · exact .inr ⟨h1, h3, fun h => h4 h.1⟩
    | succ j =>
      simp only [List.getElem?_cons_succ] at ha
      simp only [performAll, List.getElem?_cons_succ] at hr
      have IH := ih (perform s x).1 j ha hr
      simp only [performAll, List.take_succ_cons, List.mem_cons, forall_eq_or_imp]
      rw [hid, he] at IH
      have hn : (perform s x).1.constraints.length + (((performAll (perform s x).1 l).2.take j).filter accepted).length =
          s.constraints.length + (((perform s x).2 :: (performAll (perform s x).1 l).2.take j).filter accepted).length := by
        rcases h with ⟨h1, h2, _⟩ | ⟨h1, h2, _, _⟩
        · rw [h1, h2]; simp [List.filter_cons, accepted]; omega
        · rw [h1]; simp only [List.filter_cons, accepted]; rw [h2]; rfl
      rw [hn] at IH
      simpa only [and_assoc] using IH

end Maliput.SystemConstraint
