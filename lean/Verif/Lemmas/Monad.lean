import Mathlib.Data.List.Forall2
import Verif.Model.Basic

set_option autoImplicit false

/-! Loops of code that can throw. -/
namespace Maliput

theorem bind_ok {ε α β : Type} {x : Except ε α} {f : α → Except ε β} {b : β} :
    (x >>= f) = .ok b ↔ ∃ a, x = .ok a ∧ f a = .ok b := by
  cases x with
  | error e => simp [bind, Except.bind]
  | ok a => simp [bind, Except.bind]

theorem pure_ok {ε α : Type} {a b : α} : (pure a : Except ε α) = .ok b ↔ a = b := by
  simp [pure, Except.pure]

theorem throwUnless_ok {b : Bool} {u : Unit} : throwUnless b = .ok u ↔ b = true := by
  cases b <;> simp [throwUnless]

theorem allM_ok {ε α : Type} {f : α → Except ε Bool} {xs : List α} :
    xs.allM f = .ok true ↔ ∀ x ∈ xs, f x = .ok true := by
  induction xs with
  | nil => simp [List.allM, pure, Except.pure]
  | cons x xs ih =>
    simp only [List.allM, bind_ok, List.mem_cons, forall_eq_or_imp]
    constructor
    · rintro ⟨b, hb, h⟩
      cases b with
      | true => exact ⟨hb, ih.1 h⟩
      | false => simp [pure, Except.pure] at h
    · rintro ⟨h, h'⟩
      exact ⟨true, h, ih.2 h'⟩

theorem anyM_ok {ε α : Type} {f : α → Except ε Bool} {xs : List α} (h : xs.anyM f = .ok true) :
    ∃ x ∈ xs, f x = .ok true := by
  induction xs with
  | nil => simp [List.anyM, pure, Except.pure] at h
  | cons x xs ih =>
    simp only [List.anyM, bind_ok] at h
    obtain ⟨b, hb, h⟩ := h
    cases b with
    | true => exact ⟨x, by simp, hb⟩
    | false =>
      obtain ⟨y, hy, h⟩ := ih h
      exact ⟨y, by simp [hy], h⟩

theorem mapM_ok {ε α β : Type} {f : α → Except ε β} {xs : List α} :
    ∀ {r : List β}, xs.mapM f = .ok r → List.Forall₂ (fun a b => f a = .ok b) xs r := by
  induction xs with
  | nil => intro r h; simp [pure, Except.pure] at h; subst h; exact .nil
  | cons x xs ih =>
    intro r h
    rw [List.mapM_cons] at h
    simp only [bind_ok, pure_ok] at h
    obtain ⟨b, hb, bs, hbs, rfl⟩ := h
    exact .cons hb (ih hbs)

theorem mapM_of_forall₂ {ε α β : Type} {f : α → Except ε β} {xs : List α} {r : List β}
    (h : List.Forall₂ (fun a b => f a = .ok b) xs r) : xs.mapM f = .ok r := by
  induction h with
  | nil => rfl
  | cons hab _ ih => rw [List.mapM_cons, hab, ih]; rfl

theorem filterM_ok {ε α : Type} {f : α → Except ε Bool} {xs r : List α} (h : xs.filterM f = .ok r) :
    ∀ x, x ∈ r ↔ x ∈ xs ∧ f x = .ok true := by
  suffices H : ∀ (acc r : List α), List.filterAuxM f xs acc = .ok r →
      ∀ x, x ∈ r ↔ x ∈ acc ∨ (x ∈ xs ∧ f x = .ok true) by
    simp only [List.filterM, bind_ok, pure_ok] at h
    obtain ⟨r', hr', rfl⟩ := h
    intro x
    rw [List.mem_reverse, H [] r' hr' x]
    simp
  clear h r
  induction xs with
  | nil => intro acc r h; simp [List.filterAuxM, pure, Except.pure] at h; subst h; simp
  | cons y ys ih =>
    intro acc r h x
    simp only [List.filterAuxM, bind_ok] at h
    obtain ⟨b, hb, h⟩ := h
    rw [ih _ r h]
    cases b
    · simp only [cond_false, List.mem_cons]
      constructor
      · rintro (h | h)
        · exact .inl h
        · exact .inr ⟨.inr h.1, h.2⟩
      · rintro (h | ⟨rfl | h, h'⟩)
        · exact .inl h
        · rw [hb] at h'; simp at h'
        · exact .inr ⟨h, h'⟩
    · simp only [cond_true, List.mem_cons]
      constructor
      · rintro ((rfl | h) | h)
        · exact .inr ⟨.inl rfl, hb⟩
        · exact .inl h
        · exact .inr ⟨.inr h.1, h.2⟩
      · rintro (h | ⟨rfl | h, h'⟩)
        · exact .inl (.inr h)
        · exact .inl (.inl rfl)
        · exact .inr ⟨h, h'⟩

/-- If the filter never throws, `filterM` is `filter`. -/
theorem filterM_eq_filter {α : Type} {f : α → Except Err Bool} {p : α → Bool} {xs : List α}
    (h : ∀ x ∈ xs, f x = .ok (p x)) : xs.filterM f = .ok (xs.filter p) := by
  suffices H : ∀ acc, List.filterAuxM f xs acc = .ok ((xs.filter p).reverse ++ acc) by
    simp [List.filterM, H, bind, Except.bind, pure, Except.pure]
  induction xs with
  | nil => intro acc; rfl
  | cons x xs ih =>
    intro acc
    have h1 := h x (by simp)
    have h2 := ih (fun y hy => h y (by simp [hy])) (cond (p x) (x :: acc) acc)
    simp only [List.filterAuxM, h1, bind, Except.bind]
    rw [h2]
    cases hp : p x <;> simp [hp]

end Maliput
