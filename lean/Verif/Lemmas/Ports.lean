import Mathlib.Tactic.Common
import Mathlib.Data.List.Nodup
import Verif.Spec.Ports
import Verif.Lemmas.Monad

set_option autoImplicit false
set_option linter.unusedSectionVars false

namespace Maliput.Ports

open Maliput

variable {K V : Type}

theorem digits_inj {m n : Nat} (h : Nat.toDigits 10 m = Nat.toDigits 10 n) : m = n := by
  have e := congrArg (fun l => Nat.ofDigitChars 10 l 0) h
  simpa [Nat.ofDigitChars_toDigits (b := 10) (by omega) (by omega)] using e

theorem nextInputName_eq (s : System K V) (name : Option (List Char)) : nextInputName s name = inputName s.inputs.length name := by
  cases name <;> simp [nextInputName, inputName]

theorem nextOutputName_eq (s : System K V) (name : Option (List Char)) : nextOutputName s name = outputName s.outputs.length name := by
  cases name <;> simp [nextOutputName, outputName]

theorem go_ok (name : List Char) (names : List (List Char)) (k i : Nat) :
    findPort.go name k names = .ok i → k ≤ i ∧ names[i - k]? = some name := by
  induction names generalizing k with
  | nil => intro h; cases h
  | cons n l ih =>
    intro h
    unfold findPort.go at h
    by_cases e : name = n
    · rw [if_pos e] at h
      cases h
      simp [e]
    · rw [if_neg e] at h
      obtain ⟨h₁, h₂⟩ := ih _ h
      refine ⟨by omega, ?_⟩
      rw [show i - k = (i - (k + 1)) + 1 by omega, List.getElem?_cons_succ]
      exact h₂

theorem go_total (name : List Char) (names : List (List Char)) (k : Nat) :
    (name ∈ names ∧ ∃ i, findPort.go name k names = .ok i) ∨ (name ∉ names ∧ findPort.go name k names = .error .throws) := by
  induction names generalizing k with
  | nil => exact Or.inr ⟨by simp, rfl⟩
  | cons n l ih =>
    unfold findPort.go
    by_cases e : name = n
    · exact Or.inl ⟨by simp [e], k, by rw [if_pos e]⟩
    · rw [if_neg e]
      rcases ih (k + 1) with ⟨h₁, h₂⟩ | ⟨h₁, h₂⟩
      · exact Or.inl ⟨by simp [h₁], h₂⟩
      · exact Or.inr ⟨by simp [e, h₁], h₂⟩

theorem findPort_iff {names : List (List Char)} (hn : names.Nodup) (name : List Char) (i : Nat) :
    findPort names name = .ok i ↔ names[i]? = some name := by
  constructor
  · intro h
    exact (go_ok _ _ _ _ h).2
  · intro h
    rcases go_total name names 0 with ⟨_, j, h₂⟩ | ⟨h₁, _⟩
    · have h₃ := (go_ok _ _ _ _ h₂).2
      have : j = i := by
        obtain ⟨a, ha⟩ := List.getElem?_eq_some_iff.mp h
        obtain ⟨b, hb⟩ := List.getElem?_eq_some_iff.mp h₃
        have := (List.Nodup.getElem_inj_iff hn (hi := a) (hj := b)).mp (ha.trans hb.symm)
        omega
      exact this ▸ h₂
    · exact absurd (List.mem_of_getElem? h) h₁

/-! ### Declarations one by one -/

/-- What declarations leave of a system's ports. -/
structure Good (s : System K V) : Prop where
  inNodup : (s.inputs.map InPort.name).Nodup
  inName : [] ∉ s.inputs.map InPort.name
  outNodup : (s.outputs.map OutPort.name).Nodup
  outName : [] ∉ s.outputs.map OutPort.name
  entry : ∀ p ∈ s.outputs, p.entry < s.entries
  entries : (s.outputs.map OutPort.entry).Nodup

theorem good_fresh : Good (fresh : System K V) := by
  constructor <;> simp [fresh]

theorem declareInput_cases (s : System K V) (name : Option (List Char)) (size : Option Nat) :
    (inputName s.inputs.length name = [] ∧ declareInput s name size = (s, .error .aborts)) ∨
    (inputName s.inputs.length name ≠ [] ∧ inputName s.inputs.length name ∈ s.inputs.map InPort.name ∧
      declareInput s name size = (s, .error .throws)) ∨
    (inputName s.inputs.length name ≠ [] ∧ inputName s.inputs.length name ∉ s.inputs.map InPort.name ∧
      declareInput s name size =
        ({ s with inputs := s.inputs ++ [⟨inputName s.inputs.length name, size⟩] }, .ok s.inputs.length)) := by
  unfold declareInput
  rw [nextInputName_eq]
  dsimp only
  by_cases h : inputName s.inputs.length name = []
  · exact Or.inl ⟨h, by rw [if_pos h]⟩
  · by_cases h' : inputName s.inputs.length name ∈ s.inputs.map InPort.name
    · refine Or.inr (Or.inl ⟨h, h', ?_⟩)
      rw [if_neg h, if_pos]
      simpa using h'
    · refine Or.inr (Or.inr ⟨h, h', ?_⟩)
      rw [if_neg h, if_neg]
      simpa using h'

theorem declareOutput_cases (s : System K V) (name : Option (List Char)) (size : Option Nat) (n : Nat) :
    ((outputName s.outputs.length name = [] ∨ n = 0) ∧ declareOutput s name size n = (s, .error .aborts)) ∨
    (outputName s.outputs.length name ≠ [] ∧ n ≠ 0 ∧ outputName s.outputs.length name ∈ s.outputs.map OutPort.name ∧
      declareOutput s name size n = ({ s with entries := s.entries + 1 }, .error .throws)) ∨
    (outputName s.outputs.length name ≠ [] ∧ n ≠ 0 ∧ outputName s.outputs.length name ∉ s.outputs.map OutPort.name ∧
      declareOutput s name size n =
        ({ s with outputs := s.outputs ++ [⟨outputName s.outputs.length name, size, s.entries⟩], entries := s.entries + 1 },
          .ok s.outputs.length)) := by
  unfold declareOutput
  rw [nextOutputName_eq]
  dsimp only
  by_cases h : outputName s.outputs.length name = []
  · exact Or.inl ⟨Or.inl h, by rw [if_pos h]⟩
  · by_cases h0 : n = 0
    · exact Or.inl ⟨Or.inr h0, by rw [if_neg h, if_pos h0]⟩
    · by_cases h' : outputName s.outputs.length name ∈ s.outputs.map OutPort.name
      · refine Or.inr (Or.inl ⟨h, h0, h', ?_⟩)
        rw [if_neg h, if_neg h0, if_pos]
        simpa using h'
      · refine Or.inr (Or.inr ⟨h, h0, h', ?_⟩)
        rw [if_neg h, if_neg h0, if_neg]
        simpa using h'

/-- A declaration of an input port with a model, of either kind. -/
def declareModelled (s : System K V) (name : Option (List Char)) (size : Option Nat) (model : Datum K V) :
    System K V × Except Err Nat :=
  match addModel s.models s.inputs.length model with
  | .error e => (s, .error e)
  | .ok models => declareInput { s with models := models } name size

theorem declareModelled_cases (s : System K V) (name : Option (List Char)) (size : Option Nat) (d : Datum K V) :
    (s.inputs.length < s.models.length ∧ declareModelled s name size d = (s, .error .aborts)) ∨
    (s.models.length ≤ s.inputs.length ∧ declareModelled s name size d =
      declareInput { s with models := s.models ++ List.replicate (s.inputs.length - s.models.length) none ++ [some d] } name size) := by
  unfold declareModelled addModel
  by_cases h : s.models.length ≤ s.inputs.length
  · refine Or.inr ⟨h, ?_⟩
    rw [if_pos h]
  · refine Or.inl ⟨by omega, ?_⟩
    rw [if_neg h]

theorem good_input {s : System K V} (g : Good s) (name : Option (List Char)) (size : Option Nat) :
    Good (declareInput s name size).1 := by
  rcases declareInput_cases s name size with ⟨_, h⟩ | ⟨_, _, h⟩ | ⟨h₁, h₂, h⟩ <;> rw [h]
  · exact g
  · exact g
  · refine { g with inNodup := ?_, inName := ?_ }
    · simp only [List.map_append, List.map_cons, List.map_nil]
      rw [List.nodup_append]
      refine ⟨g.inNodup, by simp, ?_⟩
      intro a ha b hb e
      rw [List.mem_singleton] at hb
      exact h₂ (hb ▸ e ▸ ha)
    · simp only [List.map_append, List.map_cons, List.map_nil, List.mem_append, List.mem_singleton, not_or]
      exact ⟨g.inName, fun e => h₁ e.symm⟩

theorem good_output {s : System K V} (g : Good s) (name : Option (List Char)) (size : Option Nat) (n : Nat) :
    Good (declareOutput s name size n).1 := by
  rcases declareOutput_cases s name size n with ⟨_, h⟩ | ⟨_, _, _, h⟩ | ⟨h₁, _, h₂, h⟩ <;> rw [h]
  · exact g
  · exact { g with entry := fun p hp => Nat.lt_succ_of_lt (g.entry p hp) }
  · refine { g with outNodup := ?_, outName := ?_, entry := ?_, entries := ?_ }
    · simp only [List.map_append, List.map_cons, List.map_nil]
      rw [List.nodup_append]
      refine ⟨g.outNodup, by simp, ?_⟩
      intro a ha b hb e
      rw [List.mem_singleton] at hb
      exact h₂ (hb ▸ e ▸ ha)
    · simp only [List.map_append, List.map_cons, List.map_nil, List.mem_append, List.mem_singleton, not_or]
      exact ⟨g.outName, fun e => h₁ e.symm⟩
    · intro p hp
      rcases List.mem_append.mp hp with hp | hp
      · exact Nat.lt_succ_of_lt (g.entry p hp)
      · rw [List.mem_singleton.mp hp]
        exact Nat.lt_succ_self _
    · simp only [List.map_append, List.map_cons, List.map_nil]
      rw [List.nodup_append]
      refine ⟨g.entries, by simp, ?_⟩
      intro a ha b hb e
      rw [List.mem_singleton] at hb
      obtain ⟨p, hp, hpe⟩ := List.mem_map.mp ha
      have := g.entry p hp
      omega

theorem good_models {s : System K V} (g : Good s) (m : List (Option (Datum K V))) : Good { s with models := m } :=
  { g with }

theorem good_modelled {s : System K V} (g : Good s) (name : Option (List Char)) (size : Option Nat) (d : Datum K V) :
    Good (declareModelled s name size d).1 := by
  rcases declareModelled_cases s name size d with ⟨_, h⟩ | ⟨_, h⟩ <;> rw [h]
  · exact g
  · exact good_input (good_models g _) _ _

theorem declareVectorInput_eq (s : System K V) (name : Option (List Char)) (xs : List K) :
    declareVectorInput s name xs = declareModelled s name (some xs.length) (.vector xs) := rfl

theorem declareAbstractInput_eq (s : System K V) (name : Option (List Char)) (d : Datum K V) :
    declareAbstractInput s name d = declareModelled s name none d := rfl

theorem good_declare {s : System K V} (g : Good s) (d : Decl K V) : Good (declare s d).1 := by
  cases d with
  | vectorInput name xs => exact good_modelled g _ _ _
  | abstractInput name m => exact good_modelled g _ _ _
  | plainInput name size => exact good_input g _ _
  | output name size n => exact good_output g _ _ _

theorem history_cons {s s' : System K V} {d : Decl K V} {l : List (Decl K V)} (h : history s (d :: l) = some s') :
    (declare s d).2 ≠ .error .aborts ∧ history (declare s d).1 l = some s' := by
  unfold history at h
  rcases hd : declare s d with ⟨s₁, r⟩
  rw [hd] at h
  rcases r with e | i
  · cases e <;> first | cases h | exact ⟨by simp, h⟩
  · exact ⟨by simp, h⟩

theorem history_step {s : System K V} {d : Decl K V} {l : List (Decl K V)} (h : (declare s d).2 ≠ .error .aborts) :
    history s (d :: l) = history (declare s d).1 l := by
  rw [history]
  rcases hd : declare s d with ⟨s₁, r⟩
  rw [hd] at h
  rcases r with e | i
  · cases e <;> first | rfl | exact absurd rfl h
  · rfl

theorem history_append (l l' : List (Decl K V)) (s : System K V) :
    history s (l ++ l') = (history s l).bind fun s' => history s' l' := by
  induction l generalizing s with
  | nil => rfl
  | cons d l ih =>
    rw [List.cons_append, history, history]
    rcases declare s d with ⟨s₁, r⟩
    rcases r with e | i
    · cases e <;> first | rfl | exact ih _
    · exact ih _

theorem good_history (l : List (Decl K V)) {s s' : System K V} (g : Good s) (h : history s l = some s') : Good s' := by
  induction l generalizing s with
  | nil => cases h; exact g
  | cons d l ih => exact ih (good_declare g d) (history_cons h).2

theorem prefix_input (s : System K V) (name : Option (List Char)) (size : Option Nat) :
    s.inputs <+: (declareInput s name size).1.inputs ∧ s.outputs <+: (declareInput s name size).1.outputs ∧
      (declareInput s name size).1.models = s.models := by
  rcases declareInput_cases s name size with ⟨_, h⟩ | ⟨_, _, h⟩ | ⟨_, _, h⟩ <;> rw [h] <;>
    simp

theorem prefix_declare (s : System K V) (d : Decl K V) :
    s.inputs <+: (declare s d).1.inputs ∧ s.outputs <+: (declare s d).1.outputs := by
  have hm : ∀ name size m, s.inputs <+: (declareModelled s name size m).1.inputs ∧
      s.outputs <+: (declareModelled s name size m).1.outputs := by
    intro name size m
    rcases declareModelled_cases s name size m with ⟨_, h⟩ | ⟨_, h⟩ <;> rw [h]
    · simp
    · have := prefix_input { s with models := s.models ++ List.replicate (s.inputs.length - s.models.length) none ++ [some m] } name size
      exact ⟨this.1, this.2.1⟩
  cases d with
  | vectorInput name xs => exact hm _ _ _
  | abstractInput name m => exact hm _ _ _
  | plainInput name size => exact ⟨(prefix_input _ name size).1, (prefix_input _ name size).2.1⟩
  | output name size n =>
    rw [declare]
    rcases declareOutput_cases s name size n with ⟨_, h⟩ | ⟨_, _, _, h⟩ | ⟨_, _, _, h⟩ <;> rw [h] <;> simp

theorem prefix_history (l : List (Decl K V)) {s s' : System K V} (h : history s l = some s') :
    s.inputs <+: s'.inputs ∧ s.outputs <+: s'.outputs := by
  induction l generalizing s with
  | nil => cases h; simp
  | cons d l ih =>
    have h₁ := ih (history_cons h).2
    have h₂ := prefix_declare s d
    exact ⟨h₂.1.trans h₁.1, h₂.2.trans h₁.2⟩

/-! ### Systems whose input ports all have models -/

/-- How a system keeps the input ports that were declared. -/
structure Keeps (s : System K V) (ports : List (Declared K V)) : Prop where
  inputs : s.inputs = ports.map fun p => ⟨p.name, p.size⟩
  models : ports.map (fun p => some p.model) <+: s.models
  sizes : ∀ p ∈ ports, ∀ n, p.size = some n → ∃ xs, p.model = .vector xs ∧ xs.length = n

theorem keeps_fresh : Keeps (fresh : System K V) [] := by
  constructor <;> simp [fresh]

theorem keeps_modelled {s : System K V} {ports : List (Declared K V)} (k : Keeps s ports) (name : Option (List Char))
    (size : Option Nat) (d : Datum K V) (hs : ∀ n, size = some n → ∃ xs, d = .vector xs ∧ xs.length = n)
    (ha : (declareModelled s name size d).2 ≠ .error .aborts) :
    Keeps (declareModelled s name size d).1 (withPort ports name size d) := by
  have hl : s.inputs.length = ports.length := by rw [k.inputs]; simp
  have hin : s.inputs.map InPort.name = ports.map Declared.name := by rw [k.inputs]; simp
  rcases declareModelled_cases s name size d with ⟨_, h⟩ | ⟨hle, h⟩
  · rw [h] at ha
    exact absurd rfl ha
  · have hm : s.models = ports.map fun p => some p.model := by
      refine (k.models.eq_of_length ?_).symm
      have := k.models.length_le
      simp only [List.length_map] at this ⊢
      omega
    have hz : s.inputs.length - s.models.length = 0 := by rw [hl, hm]; simp
    rw [hz] at h
    rw [h] at ha ⊢
    have hc := declareInput_cases { s with models := s.models ++ List.replicate 0 none ++ [some d] } name size
    dsimp only at hc
    rw [hl, hin] at hc
    rcases hc with ⟨_, h'⟩ | ⟨_, h₂, h'⟩ | ⟨_, h₂, h'⟩
    · rw [h'] at ha
      exact absurd rfl ha
    · rw [h', withPort, if_pos (by simpa using h₂)]
      refine ⟨k.inputs, ?_, k.sizes⟩
      rw [hm]
      simp
    · rw [h', withPort, if_neg (by simpa using h₂)]
      refine ⟨?_, ?_, ?_⟩
      · simp [k.inputs]
      · rw [hm]
        simp
      · intro p hp
        rcases List.mem_append.mp hp with hp | hp
        · exact k.sizes p hp
        · rw [List.mem_singleton.mp hp]
          exact hs

theorem keeps_declare {s : System K V} {ports : List (Declared K V)} (k : Keeps s ports) (d : Decl K V) (hp : d.plain = false)
    (ha : (declare s d).2 ≠ .error .aborts) : Keeps (declare s d).1 (withDecl ports d) := by
  cases d with
  | vectorInput name xs =>
    exact keeps_modelled k name _ _ (fun n hn => ⟨xs, rfl, Option.some.inj hn⟩) ha
  | abstractInput name m => exact keeps_modelled k name _ _ (fun n hn => by cases hn) ha
  | plainInput name size => cases hp
  | output name size n =>
    rw [declare, show withDecl ports (.output name size n) = ports from rfl]
    rcases declareOutput_cases s name size n with ⟨_, h⟩ | ⟨_, _, _, h⟩ | ⟨_, _, _, h⟩ <;> rw [h]
    · exact k
    · exact ⟨k.inputs, k.models, k.sizes⟩
    · exact ⟨k.inputs, k.models, k.sizes⟩

theorem keeps_history (l : List (Decl K V)) (hl : ∀ d ∈ l, d.plain = false) {s s' : System K V} {ports : List (Declared K V)}
    (k : Keeps s ports) (h : history s l = some s') : Keeps s' (l.foldl withDecl ports) := by
  induction l generalizing s ports with
  | nil => cases h; exact k
  | cons d l ih =>
    obtain ⟨h₁, h₂⟩ := history_cons h
    exact ih (fun d hd => hl d (List.mem_cons_of_mem _ hd)) (keeps_declare k d (hl d List.mem_cons_self) h₁) h₂

theorem keeps_clone {s : System K V} {ports : List (Declared K V)} (k : Keeps s ports) {i : Nat} {p : Declared K V}
    (h : ports[i]? = some p) : cloneModel s.models i = some p.model := by
  obtain ⟨t, ht⟩ := k.models
  unfold cloneModel
  rw [← ht, List.getElem?_append_left, List.getElem?_map, h]
  · rfl
  · simpa using (List.getElem?_eq_some_iff.mp h).1

theorem keeps_allocate (unset : K) {s : System K V} {ports : List (Declared K V)} (k : Keeps s ports) {i : Nat} {p : Declared K V}
    (h : ports[i]? = some p) : allocate unset s i ⟨p.name, p.size⟩ = .ok p.model := by
  unfold allocate
  rw [keeps_clone k h]

theorem keeps_allocateVector (unset : K) {s : System K V} {ports : List (Declared K V)} (k : Keeps s ports) {i : Nat} {p : Declared K V}
    (h : ports[i]? = some p) {n : Nat} (hn : p.size = some n) :
    ∃ xs, p.model = .vector xs ∧ xs.length = n ∧ allocateVector unset s i ⟨p.name, p.size⟩ = .ok xs := by
  obtain ⟨xs, hx, hl⟩ := k.sizes p (List.mem_of_getElem? h) n hn
  refine ⟨xs, hx, hl, ?_⟩
  unfold allocateVector
  rw [keeps_allocate unset k h]
  simp [throwUnless, hn, hx, bind, Except.bind, pure, Except.pure]

/-- What a port accepts. -/
def checkerOf (p : Declared K V) : Checker :=
  match p.size with
  | some n => .size n
  | none => .type p.model.type

theorem accepts_checkerOf (p : Declared K V) (d : Datum K V) : (checkerOf p).accepts d = p.suits d := by
  unfold checkerOf Declared.suits
  rcases p with ⟨name, size, model⟩
  cases size with
  | none => rfl
  | some n => cases d <;> rfl

theorem keeps_makeChecker (unset : K) {s : System K V} {ports : List (Declared K V)} (k : Keeps s ports) {i : Nat} {p : Declared K V}
    (h : ports[i]? = some p) : makeChecker unset s i ⟨p.name, p.size⟩ = .ok (checkerOf p) := by
  unfold makeChecker checkerOf
  cases hs : p.size with
  | none =>
    have := keeps_allocate unset k h
    rw [hs] at this
    simp [this, bind, Except.bind, pure, Except.pure]
  | some n =>
    obtain ⟨xs, _, hl, hv⟩ := keeps_allocateVector unset k h hs
    rw [hs] at hv
    simp [hv, hl, bind, Except.bind, pure, Except.pure]

theorem keeps_addPorts (unset : K) {s : System K V} {ports : List (Declared K V)} (k : Keeps s ports) (l : List (Declared K V)) (i : Nat)
    (c : Context K V) (h : ∀ j p, l[j]? = some p → ports[i + j]? = some p) :
    addPorts unset s i (l.map fun p => ⟨p.name, p.size⟩) c =
      .ok ⟨c.checkers ++ l.map checkerOf, c.values ++ List.replicate l.length none⟩ := by
  induction l generalizing i c with
  | nil => simp [addPorts]
  | cons p l ih =>
    have h0 := h 0 p rfl
    rw [Nat.add_zero] at h0
    rw [List.map_cons, addPorts, keeps_makeChecker unset k h0]
    simp only [bind, Except.bind]
    rw [ih (i + 1) _ (fun j q hq => by have := h (j + 1) q (by simpa using hq); rwa [show i + 1 + j = i + (j + 1) by omega])]
    simp [List.replicate_succ]

theorem keeps_makeContext (unset : K) {s : System K V} {ports : List (Declared K V)} (k : Keeps s ports) :
    makeContext unset s = .ok ⟨ports.map checkerOf, List.replicate ports.length none⟩ := by
  unfold makeContext
  rw [k.inputs, keeps_addPorts unset k ports 0 ⟨[], []⟩ (fun j p hp => by simpa using hp)]
  simp

/-! ### Fixed values -/

theorem fixInput_of {ports : List (Declared K V)} {c : Context K V} (hc : c.checkers = ports.map checkerOf)
    (hv : c.values.length = ports.length) (i : Nat) (p : Declared K V) (hp : ports[i]? = some p) (d : Datum K V) :
    fixInput c i d = if p.suits d then ({ c with values := c.values.set i (some d) }, .ok ()) else (c, .error .throws) := by
  have hi := (List.getElem?_eq_some_iff.mp hp).1
  unfold fixInput
  rw [if_pos ⟨by omega, by omega⟩, hc]
  simp only [Int.toNat_natCast, List.getElem?_map, hp, Option.map_some, accepts_checkerOf]

theorem fixInput_out {c : Context K V} (i : Int) (h : i < 0 ∨ (c.values.length : Int) ≤ i) (d : Datum K V) :
    fixInput c i d = (c, .error .aborts) := by
  unfold fixInput
  rw [if_neg (by omega)]

theorem fixes_cons {c c' : Context K V} {o : Int × Datum K V} {l : List (Int × Datum K V)} (h : fixes c (o :: l) = some c') :
    (fixInput c o.1 o.2).2 ≠ .error .aborts ∧ fixes (fixInput c o.1 o.2).1 l = some c' := by
  unfold fixes at h
  rcases hd : fixInput c o.1 o.2 with ⟨s₁, r⟩
  rw [hd] at h
  rcases r with e | i
  · cases e <;> first | cases h | exact ⟨by simp, h⟩
  · exact ⟨by simp, h⟩

/-- How a context keeps fixed values: what ports accept, one place per port, and values that suit. -/
structure Fits (ports : List (Declared K V)) (c : Context K V) : Prop where
  checkers : c.checkers = ports.map checkerOf
  length : c.values.length = ports.length
  suits : ∀ (i : Nat) p d, ports[i]? = some p → c.values[i]? = some (some d) → p.suits d = true

theorem fits_fixInput {ports : List (Declared K V)} {c : Context K V} (f : Fits ports c) (o : Int × Datum K V) :
    Fits ports (fixInput c o.1 o.2).1 := by
  obtain ⟨i, d⟩ := o
  dsimp only
  by_cases hi : i < 0 ∨ (c.values.length : Int) ≤ i
  · rw [fixInput_out i hi]
    exact f
  · obtain ⟨n, rfl⟩ := Int.eq_ofNat_of_zero_le (show 0 ≤ i by omega)
    have hn : n < ports.length := by have := f.length; omega
    rw [fixInput_of f.checkers f.length n ports[n] (List.getElem?_eq_getElem hn)]
    by_cases hs : ports[n].suits d = true
    · rw [if_pos hs]
      refine ⟨f.checkers, by simp [f.length], ?_⟩
      intro j p e hp hv
      dsimp only at hv
      rw [List.getElem?_set] at hv
      by_cases hj : n = j
      · subst hj
        rw [if_pos rfl] at hv
        split at hv
        · cases hv
          rw [List.getElem?_eq_getElem hn] at hp
          cases hp
          exact hs
        · cases hv
      · rw [if_neg hj] at hv
        exact f.suits j p e hp hv
    · rw [if_neg hs]
      exact f

theorem fits_fixes {ports : List (Declared K V)} (os : List (Int × Datum K V)) {c c' : Context K V} (f : Fits ports c)
    (h : fixes c os = some c') : Fits ports c' := by
  induction os generalizing c with
  | nil => cases h; exact f
  | cons o l ih => exact ih (fits_fixInput f o) (fixes_cons h).2

theorem fits_fresh (ports : List (Declared K V)) : Fits ports ⟨ports.map checkerOf, List.replicate ports.length none⟩ := by
  refine ⟨rfl, by simp, ?_⟩
  intro i p d _ h
  dsimp only at h
  rw [List.getElem?_replicate] at h
  split at h <;> cases h

/-- The last value that suits, or else the value there was. -/
theorem value_fixes {ports : List (Declared K V)} (os : List (Int × Datum K V)) {c c' : Context K V} (f : Fits ports c)
    (h : fixes c os = some c') (i : Nat) (p : Declared K V) (hp : ports[i]? = some p) :
    evalOptional c' i =
      (((os.filter fun o => o.1 = (i : Int) ∧ p.suits o.2).getLast?).map Prod.snd).or (evalOptional c i) := by
  induction os generalizing c with
  | nil => cases h; simp
  | cons o l ih =>
    rw [ih (fits_fixInput f o) (fixes_cons h).2]
    obtain ⟨h₁, _⟩ := fixes_cons h
    obtain ⟨k, d⟩ := o
    dsimp only at h₁ ⊢
    have hr : ¬(k < 0 ∨ (c.values.length : Int) ≤ k) := fun hk => h₁ (by rw [fixInput_out k hk])
    obtain ⟨n, rfl⟩ := Int.eq_ofNat_of_zero_le (show 0 ≤ k by omega)
    have hn : n < ports.length := by have := f.length; omega
    have hi := (List.getElem?_eq_some_iff.mp hp).1
    rw [fixInput_of f.checkers f.length n ports[n] (List.getElem?_eq_getElem hn)]
    by_cases e : n = i
    · subst e
      rw [List.getElem?_eq_getElem hn] at hp
      cases hp
      by_cases hs : ports[n].suits d = true
      · rw [if_pos hs, List.filter_cons_of_pos (by simp [hs])]
        have hv : evalOptional { c with values := c.values.set n (some d) } n = some d := by
          unfold evalOptional
          rw [List.getElem?_set_self (by rw [f.length]; exact hn)]
          rfl
        rw [hv, List.getLast?_cons]
        cases hg : (l.filter fun o => o.1 = (n : Int) ∧ ports[n].suits o.2).getLast? <;> simp
      · rw [if_neg hs, List.filter_cons_of_neg (by simp [hs])]
    · rw [List.filter_cons_of_neg (by simp; intro h'; omega)]
      have : evalOptional (if ports[n].suits d = true then ({ c with values := c.values.set n (some d) }, Except.ok ())
          else (c, (.error .throws : Except Err Unit))).1 i = evalOptional c i := by
        by_cases hs : ports[n].suits d = true
        · rw [if_pos hs]
          unfold evalOptional
          dsimp only
          rw [List.getElem?_set_ne e]
        · rw [if_neg hs]
      rw [this]

theorem fixValue_eq {ports : List (Declared K V)} {c : Context K V} (f : Fits ports c) (i : Nat) (p : Declared K V)
    (hp : ports[i]? = some p) (d : Datum K V) : fixValue c i ⟨p.name, p.size⟩ d = fixInput c i d := by
  unfold fixValue
  dsimp only
  rcases hs : p.size with _ | n
  · cases d <;> rfl
  · cases d with
    | vector xs => rfl
    | other t v =>
      rw [fixInput_of f.checkers f.length i p hp]
      simp [Declared.suits, hs]

theorem suits_model {p : Declared K V} (h : ∀ n, p.size = some n → ∃ xs, p.model = .vector xs ∧ xs.length = n) : p.suits p.model = true := by
  unfold Declared.suits
  rcases hs : p.size with _ | n
  · simp
  · obtain ⟨xs, hx, hl⟩ := h n hs
    simp [hx, hl]

theorem fixAll_from (unset : K) {s : System K V} {ports : List (Declared K V)} (k : Keeps s ports) (l : List (Declared K V)) (i : Nat)
    (c : Context K V) (f : Fits ports c) (h : ∀ j p, l[j]? = some p → ports[i + j]? = some p) :
    ∃ c', fixAll unset s i (l.map fun p => ⟨p.name, p.size⟩) c = (c', .ok ()) ∧ Fits ports c' ∧
      (∀ j, j < i → evalOptional c' j = evalOptional c j) ∧
      ∀ j p, l[j]? = some p → evalOptional c' (i + j) = some p.model := by
  induction l generalizing i c with
  | nil => exact ⟨c, rfl, f, fun _ _ => rfl, fun j p hp => by simp at hp⟩
  | cons p l ih =>
    have hp := h 0 p rfl
    rw [Nat.add_zero] at hp
    have hi := (List.getElem?_eq_some_iff.mp hp).1
    have hm : valueToFix unset s i ⟨p.name, p.size⟩ = .ok p.model := by
      unfold valueToFix
      dsimp only
      rcases hs : p.size with _ | n
      · have := keeps_allocate unset k hp
        rw [hs] at this
        exact this
      · obtain ⟨xs, hx, _, hv⟩ := keeps_allocateVector unset k hp hs
        rw [hs] at hv
        rw [hx]
        dsimp only
        rw [hv]
        rfl
    have hf : fixValue c i ⟨p.name, p.size⟩ p.model = ({ c with values := c.values.set i (some p.model) }, .ok ()) := by
      rw [fixValue_eq f i p hp, fixInput_of f.checkers f.length i p hp, if_pos (suits_model (k.sizes p (List.mem_of_getElem? hp)))]
    have f' : Fits ports { c with values := c.values.set i (some p.model) } := by
      have := fits_fixInput f ((i : Int), p.model)
      rw [← fixValue_eq f i p hp] at this
      dsimp only at this
      rw [hf] at this
      exact this
    obtain ⟨c', h₁, h₂, h₃, h₄⟩ := ih (i + 1) _ f'
      (fun j q hq => by have := h (j + 1) q (by simpa using hq); rwa [show i + 1 + j = i + (j + 1) by omega])
    refine ⟨c', ?_, h₂, ?_, ?_⟩
    · rw [List.map_cons, fixAll]
      rw [hm]
      dsimp only
      rw [hf]
      exact h₁
    · intro j hj
      rw [h₃ j (by omega)]
      unfold evalOptional
      dsimp only
      rw [List.getElem?_set_ne (by omega)]
    · intro j q hq
      cases j with
      | zero =>
        simp only [List.getElem?_cons_zero, Option.some.injEq] at hq
        subst hq
        rw [Nat.add_zero, h₃ i (by omega)]
        unfold evalOptional
        dsimp only
        rw [List.getElem?_set_self (by rw [f.length]; exact hi)]
        rfl
      | succ j =>
        have := h₄ j q (by simpa using hq)
        rwa [show i + 1 + j = i + (j + 1) by omega] at this

end Maliput.Ports
