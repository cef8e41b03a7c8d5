import Mathlib.Tactic.Common
import Verif.Spec.Cache

set_option autoImplicit false
set_option linter.unusedSectionVars false

/-!
Evaluation of cache entries gives what their calculators compute, when every up to date entry holds that.
-/
namespace Maliput.Cache

open Maliput.RouteGraph (Stop)
open Spec (Computes Reads EvalsOnly)

variable {V : Type}

theorem Spec.Computes.det {k : Calc V} {src : Nat → V} {p : Prog V} {u v : V} (h : Computes k src p u)
    (g : Computes k src p v) : u = v := by
  induction h generalizing v with
  | ret => cases g; rfl
  | read t f u _ ih => cases g with | read _ _ _ g => exact ih g
  | eval i f a u _ _ ih1 ih2 =>
    cases g with
    | eval _ _ b _ g1 g2 =>
      obtain rfl := ih1 g1
      exact ih2 g2

theorem Spec.Computes.congr {k : Calc V} {src src' : Nat → V} {p : Prog V} {v : V} (h : Computes k src p v)
    (hs : ∀ t, Reads k p t → src' t = src t) : Computes k src' p v := by
  induction h with
  | ret v => exact .ret v
  | read t f v _ ih =>
    refine .read t f v ?_
    rw [hs t (.here t f)]
    exact ih fun s h => hs s (.afterRead t s f _ h)
  | eval i f u v _ _ ih1 ih2 =>
    exact .eval i f u v (ih1 fun t h => hs t (.inEval i t f h)) (ih2 fun t h => hs t (.afterEval i t f u h))

/-- Every entry that is up to date holds what its calculator computes. -/
def Fresh (k : Calc V) (c : Context V) : Prop :=
  ∀ i en, c.cache i = some en → en.outOfDate = false → Computes k c.sources (k.prog i) en.value

/-- Evaluation only changes values, serial numbers and up to date flags. -/
structure Kept (c c' : Context V) : Prop where
  rest : c' = { c with cache := c'.cache }
  entries : ∀ i, (c'.cache i).map (fun en => (en.ticket, en.disabled)) =
    (c.cache i).map (fun en => (en.ticket, en.disabled))

theorem Kept.refl (c : Context V) : Kept c c := ⟨rfl, fun _ => rfl⟩

theorem Kept.trans {c c1 c2 : Context V} (h : Kept c c1) (g : Kept c1 c2) : Kept c c2 where
  rest := by
    rw [g.rest]
    conv_lhs => rw [h.rest]
  entries i := (g.entries i).trans (h.entries i)

theorem Kept.frozen {c c' : Context V} (h : Kept c c') : c'.frozen = c.frozen := by rw [h.rest]
theorem Kept.sources {c c' : Context V} (h : Kept c c') : c'.sources = c.sources := by rw [h.rest]

theorem Kept.entry {c c' : Context V} (h : Kept c c') {i : Nat} {en : Entry V} (hc : c.cache i = some en) :
    ∃ en', c'.cache i = some en' ∧ en'.ticket = en.ticket ∧ en'.disabled = en.disabled := by
  have := h.entries i
  rw [hc, Option.map_some, Option.map_eq_some_iff] at this
  obtain ⟨en', h1, h2⟩ := this
  simp only [Prod.mk.injEq] at h2
  exact ⟨en', h1, h2⟩

theorem Kept.setEntry {c : Context V} {i : Nat} {en en' : Entry V} (h : c.cache i = some en)
    (ht : en'.ticket = en.ticket) (hd : en'.disabled = en.disabled) : Kept c (c.setEntry i en') := by
  refine ⟨rfl, fun j => ?_⟩
  by_cases hj : j = i
  · subst hj
    simp [Context.setEntry, h, ht, hd]
  · simp [Context.setEntry, hj]

/-- What an evaluation guarantees. -/
structure Evaluated (k : Calc V) (p : Prog V) (c c' : Context V) (r : Except Stop V) : Prop where
  fresh : Fresh k c'
  kept : Kept c c'
  value : ∀ v, r = .ok v → Computes k c.sources p v
  throws : r = .error (.err .throws) → c.frozen = false → ∀ v, ¬ Computes k c.sources p v

theorem runProg_spec {k : Calc V} {ev : Nat → Context V → Context V × Except Stop V}
    (hev : ∀ i c, Fresh k c → Evaluated k (k.prog i) c (ev i c).1 (ev i c).2) (p : Prog V) :
    ∀ c, Fresh k c → Evaluated k p c (runProg ev p c).1 (runProg ev p c).2 := by
  induction p with
  | ret v =>
    intro c hc
    refine ⟨hc, Kept.refl c, ?_, fun h => by cases h⟩
    intro u hu
    simp only [runProg] at hu
    cases hu
    exact .ret v
  | throw =>
    intro c hc
    exact ⟨hc, Kept.refl c, fun u hu => (by cases hu), fun _ _ v h => by cases h⟩
  | read t f ih =>
    intro c hc
    have := ih (c.sources t) c hc
    refine ⟨this.fresh, this.kept, fun v hv => .read t f v (this.value v hv), ?_⟩
    intro h1 h2 v h3
    cases h3 with
    | read _ _ _ h3 => exact this.throws h1 h2 v h3
  | eval i f ih =>
    intro c hc
    have h1 := hev i c hc
    simp only [runProg]
    generalize ev i c = r at h1
    obtain ⟨c1, r⟩ := r
    dsimp only at h1
    cases r with
    | error e =>
      refine ⟨h1.fresh, h1.kept, fun v hv => (by cases hv), ?_⟩
      intro h2 h3 v h4
      dsimp only at h2
      cases h4 with
      | eval _ _ u _ h5 _ => exact h1.throws h2 h3 u h5
    | ok u =>
      have h2 := ih u c1 h1.fresh
      dsimp only
      have hu := h1.value u rfl
      refine ⟨h2.fresh, h1.kept.trans h2.kept, ?_, ?_⟩
      · intro v hv
        refine .eval i f u v hu ?_
        have := h2.value v hv
        rwa [h1.kept.sources] at this
      · intro h3 h4 v h5
        cases h5 with
        | eval _ _ u' _ h6 h7 =>
          obtain rfl := hu.det h6
          refine h2.throws h3 (by rw [h1.kept.frozen]; exact h4) v ?_
          rw [h1.kept.sources]
          exact h7

theorem Fresh.setEntry {k : Calc V} {c : Context V} (h : Fresh k c) {i : Nat} {en : Entry V}
    (he : en.outOfDate = false → Computes k c.sources (k.prog i) en.value) : Fresh k (c.setEntry i en) := by
  intro j en' hj ho
  by_cases hij : j = i
  · subst hij
    simp only [Context.setEntry, Function.update_self, Option.some.injEq] at hj
    subst hj
    exact he ho
  · simp only [Context.setEntry, Function.update_of_ne hij] at hj
    exact h j en' hj ho

theorem evalEntry_spec (k : Calc V) (n : Nat) : ∀ (i : Nat) (c : Context V), Fresh k c →
    Evaluated k (k.prog i) c (evalEntry k n i c).1 (evalEntry k n i c).2 := by
  induction n with
  | zero =>
    intro i c hc
    exact ⟨hc, Kept.refl c, fun v hv => (by cases hv), fun h => by cases h⟩
  | succ n ih =>
    intro i c hc
    rw [evalEntry]
    cases hen : c.cache i with
    | none => exact ⟨hc, Kept.refl c, fun v hv => (by cases hv), fun h => by cases h⟩
    | some en =>
      dsimp only
      split
      · split
        · rename_i hf
          exact ⟨hc, Kept.refl c, fun v hv => (by cases hv), fun _ h => by rw [hf] at h; cases h⟩
        · rename_i hnf
          have hc1 : Fresh k (c.setEntry i { en with serial := en.serial + 1 }) := hc.setEntry fun ho => hc i en hen ho
          have k1 : Kept c (c.setEntry i { en with serial := en.serial + 1 }) := Kept.setEntry hen rfl rfl
          have h2 := runProg_spec (fun i c hc => ih i c hc) (k.prog i) _ hc1
          generalize runProg (evalEntry k n) (k.prog i) (c.setEntry i { en with serial := en.serial + 1 }) = r at h2 ⊢
          obtain ⟨c2, r⟩ := r
          dsimp only at h2
          have k2 := k1.trans h2.kept
          have hs : (c.setEntry i { en with serial := en.serial + 1 }).sources = c.sources := rfl
          obtain ⟨en2, hen2, _, _⟩ := k2.entry hen
          cases r with
          | ok v =>
            dsimp only
            rw [hen2]
            have hv : Computes k c2.sources (k.prog i) v := by
              rw [h2.kept.sources]
              exact h2.value v rfl
            refine ⟨h2.fresh.setEntry fun _ => hv, k2.trans (Kept.setEntry hen2 rfl rfl), ?_, fun h => by cases h⟩
            intro u hu
            cases hu
            rw [k2.sources] at hv
            exact hv
          | error e =>
            cases e with
            | depth => exact ⟨h2.fresh, k2, fun v hv => (by cases hv), fun h => by cases h⟩
            | err e =>
              cases e with
              | throws =>
                dsimp only
                rw [hen2]
                have hno : ∀ v, ¬ Computes k c.sources (k.prog i) v := h2.throws rfl (Bool.eq_false_iff.mpr hnf)
                refine ⟨h2.fresh.setEntry fun ho => ?_, k2.trans (Kept.setEntry hen2 rfl rfl), fun v hv => (by cases hv),
                  fun _ _ => hno⟩
                have := h2.fresh i en2 hen2 ho
                rw [k2.sources] at this
                exact absurd this (hno _)
              | _ => exact ⟨h2.fresh, k2, fun v hv => (by cases hv), fun h => by cases h⟩
      · rename_i hflags
        refine ⟨hc, Kept.refl c, ?_, fun h => by cases h⟩
        intro v hv
        cases hv
        refine hc i en hen ?_
        simpa using (Bool.or_eq_false_iff.mp (Bool.eq_false_iff.mpr hflags)).1

/-- A frozen cache stays as it is. -/
theorem evalEntry_frozen (k : Calc V) (n i : Nat) (c : Context V) (h : c.frozen = true) : (evalEntry k n i c).1 = c := by
  cases n with
  | zero => rfl
  | succ n =>
    rw [evalEntry]
    cases c.cache i with
    | none => rfl
    | some en =>
      dsimp only
      split
      · simp
      · rfl

theorem Evaluated.stored {k : Calc V} {n i : Nat} {c c' : Context V} {v : V} (h : evalEntry k n i c = (c', .ok v)) :
    ∃ en, c'.cache i = some en ∧ en.outOfDate = false ∧ en.value = v := by
  cases n with
  | zero => cases h
  | succ n =>
    rw [evalEntry] at h
    cases hen : c.cache i with
    | none => simp [hen] at h
    | some en =>
      rw [hen] at h
      dsimp only at h
      split at h
      · split at h
        · cases h
        · split at h
          · split at h
            · cases h
            · rename_i en2 _
              simp only [Prod.mk.injEq, Except.ok.injEq] at h
              obtain ⟨h1, h2⟩ := h
              rw [← h1]
              exact ⟨{ en2 with value := _, outOfDate := false }, by simp only [Context.setEntry, Function.update_self], rfl, h2⟩
          · split at h <;> cases h
          · cases h
      · rename_i hflags
        simp only [Prod.mk.injEq, Except.ok.injEq] at h
        obtain ⟨rfl, h2⟩ := h
        exact ⟨en, hen, (Bool.or_eq_false_iff.mp (Bool.eq_false_iff.mpr hflags)).1, h2⟩

/-- Outcomes of programs: a value or an exception. -/
def Plain {α : Type} (r : Except Stop α) : Prop := (∃ v, r = .ok v) ∨ r = .error (.err .throws)

theorem runProg_plain {ev : Nat → Context V → Context V × Except Stop V} {P : Nat → Prop} {m : Nat}
    (hev : ∀ i c, P i → (∀ j < m, (c.cache j).isSome) → Plain (ev i c).2 ∧ Kept c (ev i c).1) (p : Prog V) :
    ∀ c, EvalsOnly P p → (∀ j < m, (c.cache j).isSome) → Plain (runProg ev p c).2 ∧ Kept c (runProg ev p c).1 := by
  induction p with
  | ret v => exact fun c _ _ => ⟨.inl ⟨v, rfl⟩, Kept.refl c⟩
  | throw => exact fun c _ _ => ⟨.inr rfl, Kept.refl c⟩
  | read t f ih => exact fun c h hc => ih (c.sources t) c (h _) hc
  | eval i f ih =>
    intro c h hc
    obtain ⟨h1, h2⟩ := hev i c h.1 hc
    simp only [runProg]
    generalize ev i c = r at h1 h2
    obtain ⟨c1, r⟩ := r
    dsimp only at h1 h2
    cases r with
    | error e => exact ⟨by simpa [Plain] using h1, h2⟩
    | ok u =>
      dsimp only
      have h3 := ih u c1 (h.2 u) fun j hj => by
        obtain ⟨en, hen⟩ := Option.isSome_iff_exists.mp (hc j hj)
        obtain ⟨en', h', _⟩ := h2.entry hen
        simp [h']
      exact ⟨h3.1, h2.trans h3.2⟩

/-- Evaluations end when every calculator only evaluates entries of lower rank. -/
theorem evalEntry_plain {k : Calc V} {m : Nat} {rank : Nat → Nat}
    (hk : ∀ i < m, EvalsOnly (fun j => j < m ∧ rank j < rank i) (k.prog i)) (n : Nat) :
    ∀ (i : Nat) (c : Context V), i < m → rank i < n → (∀ j < m, (c.cache j).isSome) →
      Plain (evalEntry k n i c).2 ∧ Kept c (evalEntry k n i c).1 := by
  induction n with
  | zero => exact fun i c _ h => absurd h (Nat.not_lt_zero _)
  | succ n ih =>
    intro i c him hi hc
    obtain ⟨en, hen⟩ := Option.isSome_iff_exists.mp (hc i him)
    rw [evalEntry, hen]
    dsimp only
    split
    · split
      · exact ⟨.inr rfl, Kept.refl c⟩
      · have k1 : Kept c (c.setEntry i { en with serial := en.serial + 1 }) := Kept.setEntry hen rfl rfl
        have h2 := runProg_plain (ev := evalEntry k n) (m := m)
          (fun j c hj hc => ih j c hj.1 (by omega) hc) (k.prog i)
          (c.setEntry i { en with serial := en.serial + 1 }) (hk i him) (fun j hj => by
            obtain ⟨en, hen⟩ := Option.isSome_iff_exists.mp (hc j hj)
            obtain ⟨en', h', _⟩ := k1.entry hen
            simp [h'])
        generalize runProg (evalEntry k n) (k.prog i) (c.setEntry i { en with serial := en.serial + 1 }) = r at h2 ⊢
        obtain ⟨c2, r⟩ := r
        dsimp only at h2
        have k2 := k1.trans h2.2
        obtain ⟨en2, hen2, _, _⟩ := k2.entry hen
        rcases h2.1 with ⟨v, rfl⟩ | rfl
        · dsimp only
          rw [hen2]
          exact ⟨.inl ⟨v, rfl⟩, k2.trans (Kept.setEntry hen2 rfl rfl)⟩
        · dsimp only
          rw [hen2]
          exact ⟨.inr rfl, k2.trans (Kept.setEntry hen2 rfl rfl)⟩
    · exact ⟨.inl ⟨_, rfl⟩, Kept.refl c⟩

end Maliput.Cache
