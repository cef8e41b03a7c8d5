import Verif.Lemmas.Monad
import Verif.Spec.ValueProducer

set_option autoImplicit false
set_option linter.unusedSectionVars false

/-! C157: value producers. -/
namespace Maliput.Props
open Maliput Producer Maliput.Spec

variable {Ty : Type} [DecidableEq Ty] {El : Ty → Type} {Obj Cls Base Ctx : Type} {t : Ty}

theorem instanceCast_ok {cast : Obj → Option Cls} {obj : Option Obj} {c : Cls} :
    instanceCast cast obj = .ok c ↔ Instance cast obj c := by
  unfold instanceCast Instance
  cases obj with
  | none => simp [nonNull, bind, Except.bind]
  | some o =>
    cases h : cast o with
    | none => simp [nonNull, bind, Except.bind, h]
    | some d => simp [nonNull, bind, Except.bind, h]

theorem instanceCast_error {cast : Obj → Option Cls} {obj : Option Obj} (h : ¬∃ c, Instance cast obj c) :
    instanceCast cast obj = .error .throws := by
  cases e : instanceCast cast obj with
  | ok c => exact absurd ⟨c, instanceCast_ok.1 e⟩ h
  | error err =>
    unfold instanceCast at e
    cases obj with
    | none => exact e.symm
    | some o =>
      change nonNull (cast o) = _ at e
      cases hc : cast o with
      | none => rw [hc] at e; exact e.symm
      | some d => rw [hc] at e; cases e

theorem makeCalc_usable (c : CalcArg Obj Cls Base Ctx El t) :
    (UsableCalc c → ∃ f, makeCalc c = .ok (some f)) ∧ (¬UsableCalc c → makeCalc c = .error .throws ∨ makeCalc c = .ok none) := by
  cases c with
  | memberOut cast obj ctx f =>
    by_cases h : ∃ c, Instance cast obj c
    · obtain ⟨c, hc⟩ := h
      cases f with
      | none => simp [UsableCalc, makeCalc, instanceCast_ok.2 hc, nonNull, bind, Except.bind]
      | some f => exact ⟨fun _ => ⟨_, by simp only [makeCalc, instanceCast_ok.2 hc, nonNull, bind, Except.bind]; rfl⟩,
          fun hn => absurd ⟨⟨c, hc⟩, by simp⟩ hn⟩
    · exact ⟨fun hu => absurd hu.1 h, fun _ => Or.inl (by simp only [makeCalc, instanceCast_error h, bind, Except.bind])⟩
  | memberReturn cast obj ctx f =>
    by_cases h : ∃ c, Instance cast obj c
    · obtain ⟨c, hc⟩ := h
      cases f with
      | none => simp [UsableCalc, makeCalc, instanceCast_ok.2 hc, nonNull, bind, Except.bind]
      | some f => exact ⟨fun _ => ⟨_, by simp only [makeCalc, instanceCast_ok.2 hc, nonNull, bind, Except.bind]; rfl⟩,
          fun hn => absurd ⟨⟨c, hc⟩, by simp⟩ hn⟩
    · exact ⟨fun hu => absurd hu.1 h, fun _ => Or.inl (by simp only [makeCalc, instanceCast_error h, bind, Except.bind])⟩
  | functionOut ctx f =>
    cases f with
    | none => exact ⟨fun h => absurd rfl h, fun _ => Or.inl rfl⟩
    | some f => exact ⟨fun _ => ⟨_, rfl⟩, fun h => absurd (by simp [UsableCalc]) h⟩
  | functionReturn ctx f =>
    cases f with
    | none => exact ⟨fun h => absurd rfl h, fun _ => Or.inl rfl⟩
    | some f => exact ⟨fun _ => ⟨_, rfl⟩, fun h => absurd (by simp [UsableCalc]) h⟩
  | generic f =>
    cases f with
    | none => exact ⟨fun h => absurd rfl h, fun _ => Or.inr rfl⟩
    | some f => exact ⟨fun _ => ⟨_, rfl⟩, fun h => absurd (by simp [UsableCalc]) h⟩

theorem makeAllocate_usable (a : AllocateArg Obj Cls El t) :
    (UsableAllocate a → ∃ f, makeAllocate a = .ok (some f)) ∧
      (¬UsableAllocate a → makeAllocate a = .error .throws ∨ makeAllocate a = .ok none) := by
  cases a with
  | default x => exact ⟨fun _ => ⟨_, rfl⟩, fun h => absurd trivial h⟩
  | model x => exact ⟨fun _ => ⟨_, rfl⟩, fun h => absurd trivial h⟩
  | member cast obj f =>
    by_cases h : ∃ c, Instance cast obj c
    · obtain ⟨c, hc⟩ := h
      cases f with
      | none => simp [UsableAllocate, makeAllocate, instanceCast_ok.2 hc, nonNull, bind, Except.bind]
      | some f => exact ⟨fun _ => ⟨_, by simp only [makeAllocate, instanceCast_ok.2 hc, nonNull, bind, Except.bind]; rfl⟩,
          fun hn => absurd ⟨⟨c, hc⟩, by simp⟩ hn⟩
    · exact ⟨fun hu => absurd hu.1 h, fun _ => Or.inl (by simp only [makeAllocate, instanceCast_error h, bind, Except.bind])⟩
  | generic f =>
    cases f with
    | none => exact ⟨fun h => absurd rfl h, fun _ => Or.inr rfl⟩
    | some f => exact ⟨fun _ => ⟨_, rfl⟩, fun h => absurd (by simp [UsableAllocate]) h⟩

theorem make_usable (a : AllocateArg Obj Cls El t) (c : CalcArg Obj Cls Base Ctx El t) :
    (UsableAllocate a ∧ UsableCalc c → ∃ p, ValueProducer.make a c = .ok p ∧ p.isValid = true ∧
      makeAllocate a = .ok p.allocate_ ∧ makeCalc c = .ok p.calc_) ∧
    (¬(UsableAllocate a ∧ UsableCalc c) → ValueProducer.make a c = .error .throws) := by
  have hc := makeCalc_usable c
  have ha := makeAllocate_usable a
  constructor
  · rintro ⟨h1, h2⟩
    obtain ⟨f, hf⟩ := ha.1 h1
    obtain ⟨g, hg⟩ := hc.1 h2
    refine ⟨⟨some f, some g⟩, ?_, rfl, hf, hg⟩
    unfold ValueProducer.make
    rw [hf, hg]
    rfl
  · intro h
    unfold ValueProducer.make
    by_cases h1 : UsableAllocate a
    · obtain ⟨f, hf⟩ := ha.1 h1
      rw [hf]
      rcases hc.2 fun h2 => h ⟨h1, h2⟩ with e | e <;> rw [e] <;> rfl
    · rcases ha.2 h1 with e | e
      · rw [e]
        rfl
      · rw [e]
        by_cases h2 : UsableCalc c
        · obtain ⟨g, hg⟩ := hc.1 h2
          rw [hg]
          rfl
        · rcases hc.2 h2 with e | e <;> rw [e] <;> rfl

/-- C157: a producer is made, and is valid, exactly if no argument is null and every instance is of the class of its function; otherwise
the constructor throws. -/
theorem producer_made (a : AllocateArg Obj Cls El t) (c : CalcArg Obj Cls Base Ctx El t) :
    (UsableAllocate a ∧ UsableCalc c → ∃ p, ValueProducer.make a c = .ok p ∧ p.isValid = true) ∧
    (¬(UsableAllocate a ∧ UsableCalc c) → ValueProducer.make a c = .error .throws) :=
  ⟨fun h => let ⟨p, h1, h2, _⟩ := (make_usable a c).1 h; ⟨p, h1, h2⟩, (make_usable a c).2⟩

theorem getMutable_same (x : El t) : getMutable t (⟨t, x⟩ : Erased El) = .ok x := by
  unfold getMutable
  rw [dif_pos rfl]

theorem getMutable_other {v : Erased El} (h : v.1 ≠ t) : getMutable t v = .error .throws := by
  unfold getMutable
  rw [dif_neg h]

/-- C157: `Calc` with a context of the type that the function asks for, and an output of its type, does to the output what the function
does.  Any other context and any other output are refused with an exception, and the output is not changed. -/
theorem producer_calculates {a : AllocateArg Obj Cls El t} {c : CalcArg Obj Cls Base Ctx El t} {p : ValueProducer Base El}
    {ctx : Base → Option Ctx} {f : OutFunction Ctx (El t)} (hp : ValueProducer.make a c = .ok p) (hm : Means c ctx f) :
    (∀ b y x, ctx b = some y → p.calc b (some ⟨t, x⟩) = (some ⟨t, (f y x).1⟩, (f y x).2)) ∧
    (∀ b v, ctx b = none ∨ v.1 ≠ t → p.calc b (some v) = (some v, .error .throws)) ∧
    ∀ b, p.calc b none = (none, .error .throws) := by
  have hu : UsableAllocate a ∧ UsableCalc c := by
    by_contra h
    rw [(make_usable a c).2 h] at hp
    cases hp
  obtain ⟨p', hp', -, -, hc⟩ := (make_usable a c).1 hu
  rw [hp] at hp'
  obtain rfl := Except.ok.inj hp'
  cases hm with
  | @memberOut cast obj ctx g k hi =>
    simp only [makeCalc, instanceCast_ok.2 hi, nonNull, bind, Except.bind, pure, Except.pure, Except.ok.injEq] at hc
    refine ⟨fun b y x hb => ?_, fun b v hv => ?_, fun b => rfl⟩
    · simp only [ValueProducer.calc, ← hc, wrapOut, contextCast, hb, nonNull, getMutable_same]
    · cases hb : ctx b with
      | none => simp only [ValueProducer.calc, ← hc, wrapOut, contextCast, hb, nonNull]
      | some y =>
        have : v.1 ≠ t := by simpa [hb] using hv
        simp only [ValueProducer.calc, ← hc, wrapOut, contextCast, hb, nonNull, getMutable_other this]
  | @memberReturn cast obj ctx g k hi =>
    simp only [makeCalc, instanceCast_ok.2 hi, nonNull, bind, Except.bind, pure, Except.pure, Except.ok.injEq] at hc
    refine ⟨fun b y x hb => ?_, fun b v hv => ?_, fun b => rfl⟩
    · simp only [ValueProducer.calc, ← hc, wrapReturn, contextCast, hb, nonNull, getMutable_same]
      cases g k y <;> rfl
    · cases hb : ctx b with
      | none => simp only [ValueProducer.calc, ← hc, wrapReturn, contextCast, hb, nonNull]
      | some y =>
        have : v.1 ≠ t := by simpa [hb] using hv
        simp only [ValueProducer.calc, ← hc, wrapReturn, contextCast, hb, nonNull, getMutable_other this]
  | functionOut =>
    simp only [makeCalc, nonNull, bind, Except.bind, pure, Except.pure, Except.ok.injEq] at hc
    refine ⟨fun b y x hb => ?_, fun b v hv => ?_, fun b => rfl⟩
    · simp only [ValueProducer.calc, ← hc, wrapOut, contextCast, hb, nonNull, getMutable_same]
    · cases hb : ctx b with
      | none => simp only [ValueProducer.calc, ← hc, wrapOut, contextCast, hb, nonNull]
      | some y =>
        have : v.1 ≠ t := by simpa [hb] using hv
        simp only [ValueProducer.calc, ← hc, wrapOut, contextCast, hb, nonNull, getMutable_other this]
  | @functionReturn _ g =>
    simp only [makeCalc, nonNull, bind, Except.bind, pure, Except.pure, Except.ok.injEq] at hc
    refine ⟨fun b y x hb => ?_, fun b v hv => ?_, fun b => rfl⟩
    · simp only [ValueProducer.calc, ← hc, wrapReturn, contextCast, hb, nonNull, getMutable_same]
      cases g y <;> rfl
    · cases hb : ctx b with
      | none => simp only [ValueProducer.calc, ← hc, wrapReturn, contextCast, hb, nonNull]
      | some y =>
        have : v.1 ≠ t := by simpa [hb] using hv
        simp only [ValueProducer.calc, ← hc, wrapReturn, contextCast, hb, nonNull, getMutable_other this]

/-- C157: what is allocated without a generic callback has the type of the output: the default, the model, or what the member function
made, whose exceptions reach the caller. -/
theorem producer_allocates {a : AllocateArg Obj Cls El t} {c : CalcArg Obj Cls Base Ctx El t} {p : ValueProducer Base El}
    (hp : ValueProducer.make a c = .ok p) :
    (∀ x, a = .default x ∨ a = .model x → p.allocate = .ok ⟨t, x⟩) ∧
    (∀ cast obj f k, a = .member cast obj (some f) → Instance cast obj k →
      (∀ x, f k = .ok (some x) → p.allocate = .ok ⟨t, x⟩) ∧ (f k = .ok none → p.allocate = .error .aborts) ∧
        ∀ e, f k = .error e → p.allocate = .error e) ∧
    ∀ f, a = .generic (some f) → p.allocate = f () := by
  have hu : UsableAllocate a ∧ UsableCalc c := by
    by_contra h
    rw [(make_usable a c).2 h] at hp
    cases hp
  obtain ⟨p', hp', -, ha, -⟩ := (make_usable a c).1 hu
  rw [hp] at hp'
  obtain rfl := Except.ok.inj hp'
  refine ⟨?_, ?_, ?_⟩
  · rintro x (rfl | rfl) <;>
    · simp only [makeAllocate, pure, Except.pure, Except.ok.injEq] at ha
      simp only [ValueProducer.allocate, ← ha]
  · rintro cast obj f k rfl hi
    simp only [makeAllocate, instanceCast_ok.2 hi, nonNull, bind, Except.bind, pure, Except.pure, Except.ok.injEq] at ha
    refine ⟨fun x hx => ?_, fun hx => ?_, fun e he => ?_⟩
    · simp only [ValueProducer.allocate, ← ha, hx]
    · simp only [ValueProducer.allocate, ← ha, hx]
    · simp only [ValueProducer.allocate, ← ha, he]
  · rintro f rfl
    simp only [makeAllocate, pure, Except.pure, Except.ok.injEq] at ha
    simp only [ValueProducer.allocate, ← ha]

/-- C157: a generic callback gets the context and the output as they are, and its exceptions reach the caller. -/
theorem producer_generic {a : AllocateArg Obj Cls El t} {f : CalcCallback Base El} {p : ValueProducer Base El}
    (hp : ValueProducer.make a (.generic (some f) : CalcArg Obj Cls Base Ctx El t) = .ok p) (b : Base) (v : Erased El) :
    p.calc b (some v) = (some (f b v).1, (f b v).2) ∧ p.calc b none = (none, .error .throws) := by
  have hu : UsableAllocate a ∧ UsableCalc (.generic (some f) : CalcArg Obj Cls Base Ctx El t) := by
    by_contra h
    rw [(make_usable a _).2 h] at hp
    cases hp
  obtain ⟨p', hp', -, -, hc⟩ := (make_usable a _).1 hu
  rw [hp] at hp'
  obtain rfl := Except.ok.inj hp'
  simp only [makeCalc, pure, Except.pure, Except.ok.injEq] at hc
  exact ⟨by simp only [ValueProducer.calc, ← hc], rfl⟩

/-- C157: a producer that was made by default can do nothing but throw, and leaves the output alone. -/
theorem producer_invalid (b : Base) (v : Option (Erased El)) :
    (ValueProducer.invalid : ValueProducer Base El).isValid = false ∧
    (ValueProducer.invalid : ValueProducer Base El).allocate = .error .throws ∧
    (ValueProducer.invalid : ValueProducer Base El).calc b v = (v, .error .throws) := by
  cases v <;> exact ⟨rfl, rfl, rfl⟩

/-- Two types of outputs, both with natural numbers as values. -/
abbrev twoTypes : Bool → Type := fun _ => Nat

/-- A member function that returns a sum, for instances above 10 and contexts above 100. -/
def sumProducer (obj : Option Nat) : Except Err (ValueProducer Nat twoTypes) :=
  ValueProducer.make (t := true) (.model 5 : AllocateArg Nat Nat twoTypes true)
    (.memberReturn (fun o => if o > 10 then some o else none) obj (fun b => if b > 100 then some b else none)
      (some fun k c => .ok (k + c)) : CalcArg Nat Nat Nat Nat twoTypes true)

example : (sumProducer (some 11)).map (fun p => (p.calc 101 (some ⟨true, 5⟩)).1) = .ok (some ⟨true, 112⟩) := rfl
example : (sumProducer (some 11)).map (fun p => p.calc 100 (some ⟨true, 5⟩)) = .ok (some ⟨true, 5⟩, .error .throws) := rfl
example : (sumProducer (some 11)).map (fun p => p.calc 101 (some ⟨false, 5⟩)) = .ok (some ⟨false, 5⟩, .error .throws) := rfl
example : (sumProducer (some 11)).map (fun p => p.allocate) = .ok (.ok ⟨true, 5⟩) := rfl
example : (sumProducer none).isOk = false ∧ (sumProducer (some 9)).isOk = false := ⟨rfl, rfl⟩

end Maliput.Props
