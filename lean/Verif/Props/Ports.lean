import Verif.Lemmas.Ports

set_option autoImplicit false
set_option linter.unusedSectionVars false

/-!
C146: declarations of ports, looking ports up, and the fixed values of input ports.
-/
namespace Maliput.Props

open Maliput Maliput.Ports

variable {K V : Type}

/-! ### Declarations -/

/-- Two input ports, one of them with a given name, an output port, an input port whose name is in use, one more output port. -/
def namedPortDecls : List (Decl Nat Nat) :=
  [.vectorInput none [5, 6], .abstractInput (some ['a']) (.other 3 7), .output none (some 2) 1, .vectorInput (some ['a']) [1],
    .output (some ['u', '0']) none 2]

/-- The system after these declarations. -/
def namedPortSystem : System Nat Nat :=
  ⟨[⟨['u', '0'], some 2⟩, ⟨['a'], none⟩], [some (.vector [5, 6]), some (.other 3 7), some (.vector [1])],
    [⟨['y', '0'], some 2, 0⟩, ⟨['u', '0'], none, 1⟩], 2⟩

example : history (fresh : System Nat Nat) namedPortDecls = some namedPortSystem := by decide +kernel

/-- After any declarations, whether they succeed or throw: no two input ports have the same name, no two output ports do, no name is empty,
and no two output ports share a cache entry. -/
theorem port_names_distinct (ds : List (Decl K V)) (s : System K V) (h : history fresh ds = some s) :
    (s.inputs.map InPort.name).Nodup ∧ [] ∉ s.inputs.map InPort.name ∧ (s.outputs.map OutPort.name).Nodup ∧
      [] ∉ s.outputs.map OutPort.name ∧ (s.outputs.map OutPort.entry).Nodup ∧ ∀ p ∈ s.outputs, p.entry < s.entries := by
  have g := good_history ds good_fresh h
  exact ⟨g.inNodup, g.inName, g.outNodup, g.outName, g.entries, g.entry⟩

/-- A port is found by its name, and only by it; a name that no port has is answered by an exception, or `false`. -/
theorem port_lookup (ds : List (Decl K V)) (s : System K V) (h : history fresh ds = some s) (name : List Char) :
    (∀ i : Nat, findPort (s.inputs.map InPort.name) name = .ok i ↔ ∃ p, s.inputs[i]? = some p ∧ p.name = name) ∧
    (findPort (s.inputs.map InPort.name) name = .error .throws ↔ ∀ p ∈ s.inputs, p.name ≠ name) ∧
    (hasPort (s.inputs.map InPort.name) name = true ↔ ∃ p ∈ s.inputs, p.name = name) ∧
    (∀ i : Nat, findPort (s.outputs.map OutPort.name) name = .ok i ↔ ∃ p, s.outputs[i]? = some p ∧ p.name = name) ∧
    (findPort (s.outputs.map OutPort.name) name = .error .throws ↔ ∀ p ∈ s.outputs, p.name ≠ name) ∧
    (hasPort (s.outputs.map OutPort.name) name = true ↔ ∃ p ∈ s.outputs, p.name = name) := by
  have g := good_history ds good_fresh h
  have hf : ∀ names : List (List Char), findPort names name = .error .throws ↔ name ∉ names := by
    intro names
    rcases go_total name names 0 with ⟨h₁, i, h₂⟩ | ⟨h₁, h₂⟩
    · refine ⟨fun h' => ?_, fun h' => absurd h₁ h'⟩
      have := h₂.symm.trans h'
      cases this
    · exact ⟨fun _ => h₁, fun _ => h₂⟩
  have hh : ∀ names : List (List Char), hasPort names name = true ↔ name ∈ names := by
    intro names
    simp [hasPort]
  refine ⟨fun i => ?_, ?_, ?_, fun i => ?_, ?_, ?_⟩
  · rw [findPort_iff g.inNodup]
    simp
  · rw [hf]
    simp
  · rw [hh]
    simp
  · rw [findPort_iff g.outNodup]
    simp
  · rw [hf]
    simp
  · rw [hh]
    simp

/-- Ports stay where they are: later declarations, whether they succeed or throw, only add ports behind the others. -/
theorem ports_stay (ds : List (Decl K V)) (s s' : System K V) (h : history s ds = some s') :
    (∀ (i : Nat) p, s.inputs[i]? = some p → s'.inputs[i]? = some p) ∧
      ∀ (i : Nat) p, s.outputs[i]? = some p → s'.outputs[i]? = some p := by
  obtain ⟨⟨a, ha⟩, ⟨b, hb⟩⟩ := prefix_history ds h
  refine ⟨fun i p hp => ?_, fun i p hp => ?_⟩
  · rw [← ha, List.getElem?_append_left (List.getElem?_eq_some_iff.mp hp).1]
    exact hp
  · rw [← hb, List.getElem?_append_left (List.getElem?_eq_some_iff.mp hp).1]
    exact hp

/-- An input port without a model: the declaration throws exactly if the name is in use by an input port, ends the program exactly if the
name is empty, and otherwise adds the port and gives its index.  A declaration that does not succeed leaves the ports as they were. -/
theorem input_port_declared (s : System K V) (name : Option (List Char)) (size : Option Nat) :
    ((declareInput s name size).2 = .error .aborts ↔ name = some []) ∧
    ((declareInput s name size).2 = .error .throws ↔
      name ≠ some [] ∧ ∃ p ∈ s.inputs, p.name = inputName s.inputs.length name) ∧
    (∀ i, (declareInput s name size).2 = .ok i → i = s.inputs.length ∧
      (declareInput s name size).1.inputs = s.inputs ++ [⟨inputName s.inputs.length name, size⟩]) ∧
    (∀ e, (declareInput s name size).2 = .error e → (declareInput s name size).1 = s) := by
  have he : inputName s.inputs.length name = [] ↔ name = some [] := by
    cases name <;> simp [inputName]
  have hm : inputName s.inputs.length name ∈ s.inputs.map InPort.name ↔ ∃ p ∈ s.inputs, p.name = inputName s.inputs.length name := by
    simp
  rw [← he, ← hm]
  rcases declareInput_cases s name size with ⟨h₁, h⟩ | ⟨h₁, h₂, h⟩ | ⟨h₁, h₂, h⟩ <;> rw [h] <;>
    refine ⟨?_, ?_, ?_, ?_⟩ <;> simp_all

/-- An output port: the declaration throws exactly if the name is in use by an output port; an input port of the same name does not matter. -/
theorem output_port_declared (s : System K V) (name : Option (List Char)) (size : Option Nat) (n : Nat) :
    ((declareOutput s name size n).2 = .error .aborts ↔ name = some [] ∨ n = 0) ∧
    ((declareOutput s name size n).2 = .error .throws ↔
      name ≠ some [] ∧ n ≠ 0 ∧ ∃ p ∈ s.outputs, p.name = outputName s.outputs.length name) ∧
    (∀ i, (declareOutput s name size n).2 = .ok i → i = s.outputs.length ∧
      (declareOutput s name size n).1.outputs = s.outputs ++ [⟨outputName s.outputs.length name, size, s.entries⟩]) ∧
    (∀ e, (declareOutput s name size n).2 = .error e → (declareOutput s name size n).1.outputs = s.outputs) ∧
    (declareOutput s name size n).1.inputs = s.inputs ∧ (declareOutput s name size n).1.models = s.models := by
  have he : outputName s.outputs.length name = [] ↔ name = some [] := by
    cases name <;> simp [outputName]
  have hm : outputName s.outputs.length name ∈ s.outputs.map OutPort.name ↔
      ∃ p ∈ s.outputs, p.name = outputName s.outputs.length name := by
    simp
  rw [← he, ← hm]
  rcases declareOutput_cases s name size n with ⟨h₁, h⟩ | ⟨h₁, h₀, h₂, h⟩ | ⟨h₁, h₀, h₂, h⟩ <;> rw [h] <;>
    refine ⟨?_, ?_, ?_, ?_, ?_, ?_⟩ <;> simp_all
  rcases h₁ with h₁ | h₁ <;> simp [h₁]

/-- An input port with a model, as long as no such declaration has thrown: like one without, and a declaration that ends the program does so
because of an empty name only. -/
theorem modelled_port_declared (s : System K V) (hm : s.models.length ≤ s.inputs.length) (name : Option (List Char)) (d : Decl K V)
    (hd : (∃ xs, d = .vectorInput name xs) ∨ ∃ m, d = .abstractInput name m) :
    ((declare s d).2 = .error .aborts ↔ name = some []) ∧
    ((declare s d).2 = .error .throws ↔ name ≠ some [] ∧ ∃ p ∈ s.inputs, p.name = inputName s.inputs.length name) ∧
    (∀ i, (declare s d).2 = .ok i → i = s.inputs.length ∧
      (declare s d).1.inputs = s.inputs ++
        [⟨inputName s.inputs.length name, match d with | .vectorInput _ xs => some xs.length | _ => none⟩] ∧
      (declare s d).1.models.length = (declare s d).1.inputs.length) ∧
    (∀ e, (declare s d).2 = .error e → (declare s d).1.inputs = s.inputs) ∧ (declare s d).1.outputs = s.outputs := by
  have key : ∀ size m, ((declareModelled s name size m).2 = .error .aborts ↔ name = some []) ∧
      ((declareModelled s name size m).2 = .error .throws ↔ name ≠ some [] ∧ ∃ p ∈ s.inputs, p.name = inputName s.inputs.length name) ∧
      (∀ i, (declareModelled s name size m).2 = .ok i → i = s.inputs.length ∧
        (declareModelled s name size m).1.inputs = s.inputs ++ [⟨inputName s.inputs.length name, size⟩] ∧
        (declareModelled s name size m).1.models.length = (declareModelled s name size m).1.inputs.length) ∧
      (∀ e, (declareModelled s name size m).2 = .error e → (declareModelled s name size m).1.inputs = s.inputs) ∧
      (declareModelled s name size m).1.outputs = s.outputs := by
    intro size m
    have he : inputName s.inputs.length name = [] ↔ name = some [] := by
      cases name <;> simp [inputName]
    have hmem : inputName s.inputs.length name ∈ s.inputs.map InPort.name ↔
        ∃ p ∈ s.inputs, p.name = inputName s.inputs.length name := by
      simp
    rw [← he, ← hmem]
    rcases declareModelled_cases s name size m with ⟨h, _⟩ | ⟨_, h⟩
    · omega
    · rw [h]
      have hc := declareInput_cases
        { s with models := s.models ++ List.replicate (s.inputs.length - s.models.length) none ++ [some m] } name size
      dsimp only at hc
      rcases hc with ⟨h₁, h'⟩ | ⟨h₁, h₂, h'⟩ | ⟨h₁, h₂, h'⟩ <;> rw [h']
      · refine ⟨?_, ?_, ?_, ?_, ?_⟩ <;> simp_all
      · refine ⟨?_, ?_, ?_, ?_, ?_⟩ <;> simp_all
      · refine ⟨by simp_all, by simp_all, ?_, by simp_all, by simp_all⟩
        intro i hi
        cases hi
        refine ⟨rfl, rfl, ?_⟩
        simp
        omega
  rcases hd with ⟨xs, rfl⟩ | ⟨m, rfl⟩
  · exact key _ _
  · exact key _ _

/-- If no name is given, no declaration fails for its name, and the names are `u0`, `u1`, … and `y0`, `y1`, …. -/
theorem default_port_names (ds : List (Decl K V))
    (hd : ∀ d ∈ ds, (∃ xs, d = .vectorInput none xs) ∨ (∃ m, d = .abstractInput none m) ∨ (∃ size, d = .plainInput none size) ∨
      ∃ size n, n ≠ 0 ∧ d = .output none size n) :
    ∃ s, history (fresh : System K V) ds = some s ∧
      (∀ (i : Nat) p, s.inputs[i]? = some p → p.name = 'u' :: (toString i).toList) ∧
      (∀ (i : Nat) p, s.outputs[i]? = some p → p.name = 'y' :: (toString i).toList) ∧
      s.inputs.length + s.outputs.length = ds.length := by
  suffices H : ∀ s : System K V, s.models.length ≤ s.inputs.length →
      (∀ (i : Nat) p, s.inputs[i]? = some p → p.name = 'u' :: (toString i).toList) →
      (∀ (i : Nat) p, s.outputs[i]? = some p → p.name = 'y' :: (toString i).toList) →
      ∃ s', history s ds = some s' ∧
        (∀ (i : Nat) p, s'.inputs[i]? = some p → p.name = 'u' :: (toString i).toList) ∧
        (∀ (i : Nat) p, s'.outputs[i]? = some p → p.name = 'y' :: (toString i).toList) ∧
        s'.inputs.length + s'.outputs.length = s.inputs.length + s.outputs.length + ds.length by
    obtain ⟨s, h₁, h₂, h₃, h₄⟩ := H fresh (by simp [fresh]) (fun i p hp => by simp [fresh] at hp) (fun i p hp => by simp [fresh] at hp)
    exact ⟨s, h₁, h₂, h₃, by simpa [fresh] using h₄⟩
  induction ds with
  | nil => exact fun s _ hi ho => ⟨s, rfl, hi, ho, rfl⟩
  | cons d l ih =>
    intro s hm hi ho
    have ih' := ih (fun d hd' => hd d (List.mem_cons_of_mem _ hd'))
    have nin : ∀ p ∈ s.inputs, p.name ≠ inputName s.inputs.length none := by
      intro p hp e
      obtain ⟨i, hi', hip⟩ := List.mem_iff_getElem.mp hp
      have h₁ := hi i p (by rw [← hip]; exact List.getElem?_eq_getElem hi')
      rw [h₁] at e
      simp only [inputName, List.cons.injEq, true_and] at e
      have : i = s.inputs.length := digits_inj (by simpa using e)
      omega
    have nout : ∀ p ∈ s.outputs, p.name ≠ outputName s.outputs.length none := by
      intro p hp e
      obtain ⟨i, hi', hip⟩ := List.mem_iff_getElem.mp hp
      have h₁ := ho i p (by rw [← hip]; exact List.getElem?_eq_getElem hi')
      rw [h₁] at e
      simp only [outputName, List.cons.injEq, true_and] at e
      have : i = s.outputs.length := digits_inj (by simpa using e)
      omega
    have append : ∀ {α : Type} (f : α → List Char) (c : Char) (l : List α) (x : α), f x = c :: (toString l.length).toList →
        (∀ (i : Nat) p, l[i]? = some p → f p = c :: (toString i).toList) →
        ∀ (i : Nat) p, (l ++ [x])[i]? = some p → f p = c :: (toString i).toList := by
      intro α f c l x hx hl i p hp
      by_cases hlt : i < l.length
      · rw [List.getElem?_append_left hlt] at hp
        exact hl i p hp
      · rw [List.getElem?_append_right (by omega)] at hp
        have : i - l.length = 0 := by
          by_contra h
          rw [List.getElem?_eq_none (by simp; omega)] at hp
          cases hp
        rw [this] at hp
        cases hp
        rw [hx, show i = l.length by omega]
    have input : ∀ e : Decl K V, (declare s e).2 ≠ .error .aborts →
        (∃ size, (declare s e).1.inputs = s.inputs ++ [⟨inputName s.inputs.length none, size⟩]) →
        (declare s e).1.outputs = s.outputs → (declare s e).1.models.length ≤ (declare s e).1.inputs.length → d = e →
        ∃ s', history s (d :: l) = some s' ∧
          (∀ (i : Nat) p, s'.inputs[i]? = some p → p.name = 'u' :: (toString i).toList) ∧
          (∀ (i : Nat) p, s'.outputs[i]? = some p → p.name = 'y' :: (toString i).toList) ∧
          s'.inputs.length + s'.outputs.length = s.inputs.length + s.outputs.length + (d :: l).length := by
      rintro e ha ⟨size, hin⟩ hout hmod rfl
      obtain ⟨s', h₁, h₂, h₃, h₄⟩ := ih' (declare s d).1 hmod
        (by rw [hin]; exact append InPort.name 'u' _ _ rfl hi) (by rw [hout]; exact ho)
      refine ⟨s', by rw [history_step ha]; exact h₁, h₂, h₃, ?_⟩
      rw [h₄, hin, hout]
      simp
      omega
    rcases hd d List.mem_cons_self with ⟨xs, rfl⟩ | ⟨m, rfl⟩ | ⟨size, rfl⟩ | ⟨size, n, hn, rfl⟩
    · obtain ⟨h₁, h₂, h₃, _, h₅⟩ := modelled_port_declared s hm none (.vectorInput none xs) (Or.inl ⟨_, rfl⟩)
      rcases hr : (declare s (.vectorInput none xs)).2 with e | i
      · exfalso
        rcases declareModelled_cases s none (some xs.length) (.vector xs) with ⟨h, _⟩ | ⟨_, h⟩
        · omega
        · have hc := declareInput_cases
            { s with models := s.models ++ List.replicate (s.inputs.length - s.models.length) none ++ [some (.vector xs)] } none
            (some xs.length)
          dsimp only at hc
          have hr' : (declareModelled s none (some xs.length) (.vector xs)).2 = .error e := hr
          rw [h] at hr'
          rcases hc with ⟨h', _⟩ | ⟨_, h', _⟩ | ⟨_, _, h'⟩
          · cases h'
          · obtain ⟨p, hp, hpe⟩ := List.mem_map.mp h'
            exact nin p hp hpe
          · rw [h'] at hr'
            cases hr'
      · exact input _ (by rw [hr]; simp) ⟨_, (h₃ i hr).2.1⟩ h₅ (Nat.le_of_eq (h₃ i hr).2.2) rfl
    · obtain ⟨h₁, h₂, h₃, _, h₅⟩ := modelled_port_declared s hm none (.abstractInput none m) (Or.inr ⟨_, rfl⟩)
      rcases hr : (declare s (.abstractInput none m)).2 with e | i
      · exfalso
        rcases declareModelled_cases s none none m with ⟨h, _⟩ | ⟨_, h⟩
        · omega
        · have hc := declareInput_cases
            { s with models := s.models ++ List.replicate (s.inputs.length - s.models.length) none ++ [some m] } none none
          dsimp only at hc
          have hr' : (declareModelled s none none m).2 = .error e := hr
          rw [h] at hr'
          rcases hc with ⟨h', _⟩ | ⟨_, h', _⟩ | ⟨_, _, h'⟩
          · cases h'
          · obtain ⟨p, hp, hpe⟩ := List.mem_map.mp h'
            exact nin p hp hpe
          · rw [h'] at hr'
            cases hr'
      · exact input _ (by rw [hr]; simp) ⟨_, (h₃ i hr).2.1⟩ h₅ (Nat.le_of_eq (h₃ i hr).2.2) rfl
    · rcases declareInput_cases s none size with ⟨h', _⟩ | ⟨_, h', _⟩ | ⟨_, _, h'⟩
      · cases h'
      · obtain ⟨p, hp, hpe⟩ := List.mem_map.mp h'
        exact absurd hpe (nin p hp)
      · have h'' : declare s (.plainInput none size) = _ := h'
        exact input _ (by rw [h'']; simp) ⟨size, by rw [h'']⟩ (by rw [h'']) (by rw [h'']; simp; omega) rfl
    · rcases declareOutput_cases s none size n with ⟨h' | h', _⟩ | ⟨_, _, h', _⟩ | ⟨_, _, _, h'⟩
      · cases h'
      · exact absurd h' hn
      · obtain ⟨p, hp, hpe⟩ := List.mem_map.mp h'
        exact absurd hpe (nout p hp)
      · have h'' : declare s (.output none size n) = _ := h'
        obtain ⟨s', h₁, h₂, h₃, h₄⟩ := ih' (declare s (.output none size n)).1 (by rw [h'']; exact hm) (by rw [h'']; exact hi)
          (by rw [h'']; exact append OutPort.name 'y' _ _ rfl ho)
        refine ⟨s', by rw [history_step (by rw [h'']; simp)]; exact h₁, h₂, h₃, ?_⟩
        rw [h₄, h'']
        simp
        omega

/-- A default name may be taken by a name that was given, and then the declaration throws. -/
theorem default_name_taken :
    (declare (⟨[⟨['u', '1'], some 1⟩], [], [], 0⟩ : System Nat Nat) (.plainInput none (some 1))).2 = .error .throws := by decide +kernel

/-- After a declaration of an input port with a model threw because its name is in use, every later declaration of one ends the program,
until an input port without a model was declared. -/
theorem input_port_after_throw (s s₁ s₂ : System K V) (d e : Decl K V) (hd : d.modelled = true)
    (ht : declare s d = (s₁, .error .throws)) (ds : List (Decl K V)) (hds : ∀ d' ∈ ds, d'.plain = false)
    (h : history s₁ ds = some s₂) (he : e.modelled = true) : (declare s₂ e).2 = .error .aborts := by
  have h₁ : s₁.inputs.length < s₁.models.length := by
    have key : ∀ name size m, declareModelled s name size m = (s₁, .error .throws) → s₁.inputs.length < s₁.models.length := by
      intro name size m ht
      rcases declareModelled_cases s name size m with ⟨_, h'⟩ | ⟨_, h'⟩
      · rw [h'] at ht
        cases ht
      · rw [h'] at ht
        rcases declareInput_cases
          { s with models := s.models ++ List.replicate (s.inputs.length - s.models.length) none ++ [some m] } name size
          with ⟨_, h''⟩ | ⟨_, _, h''⟩ | ⟨_, _, h''⟩ <;> rw [h''] at ht <;> cases ht
        simp
        omega
    cases d with
    | vectorInput name xs => exact key _ _ _ ht
    | abstractInput name m => exact key _ _ _ ht
    | plainInput name size => cases hd
    | output name size n => cases hd
  have dead : ∀ (s : System K V), s.inputs.length < s.models.length → ∀ e : Decl K V, e.modelled = true →
      (declare s e).2 = .error .aborts := by
    intro s hs e he
    have key : ∀ name size m, (declareModelled s name size m).2 = .error .aborts := by
      intro name size m
      rcases declareModelled_cases s name size m with ⟨_, h'⟩ | ⟨h', _⟩
      · rw [h']
      · omega
    cases e with
    | vectorInput name xs => exact key _ _ _
    | abstractInput name m => exact key _ _ _
    | plainInput name size => cases he
    | output name size n => cases he
  refine dead s₂ ?_ e he
  clear ht
  induction ds generalizing s₁ with
  | nil => cases h; exact h₁
  | cons d' l ih =>
    obtain ⟨h₂, h₃⟩ := history_cons h
    refine ih _ (fun x hx => hds x (List.mem_cons_of_mem _ hx)) h₃ ?_
    cases d' with
    | vectorInput name xs => exact absurd (dead s₁ h₁ _ rfl) h₂
    | abstractInput name m => exact absurd (dead s₁ h₁ _ rfl) h₂
    | plainInput name size => exact absurd (hds _ List.mem_cons_self) (by simp [Decl.plain])
    | output name size n =>
      obtain ⟨_, _, _, _, h₄, h₅⟩ := output_port_declared s₁ name size n
      rw [show declare s₁ (.output name size n) = declareOutput s₁ name size n from rfl, h₄, h₅]
      exact h₁

example : (declare namedPortSystem (.vectorInput none [2])).2 = .error .aborts := by decide +kernel

/-! ### Looking ports up by index -/

/-- A port is got by its index, and only by an index that is in range; without an index only if there is just one. -/
theorem port_by_index (s : System K V) (i : Int) :
    (∀ p, getInput s i = .ok p ↔ ∃ n : Nat, i = n ∧ s.inputs[n]? = some p) ∧
    (getInput s i = .error .outOfRange ↔ i < 0 ∨ (s.inputs.length : Int) ≤ i) ∧
    (∀ p, onlyInput s = .ok p ↔ s.inputs = [p]) ∧ (onlyInput s = .error .throws ↔ s.inputs.length ≠ 1) ∧
    (∀ p, select s .useFirstIfItExists = .ok p ↔ p = s.inputs.head?) ∧ select s .noInput = .ok none ∧
    (∀ p, select s (.index i) = .ok p ↔ ∃ q, p = some q ∧ getInput s i = .ok q) := by
  have h0 : ∀ i : Int, (i < 0 ∧ getInput s i = .error .outOfRange) ∨
      ∃ n : Nat, i = n ∧ ((s.inputs[n]? = none ∧ getInput s i = .error .outOfRange) ∨
        ∃ p, s.inputs[n]? = some p ∧ getInput s i = .ok p) := by
    intro i
    unfold getInput
    by_cases h : i < 0
    · exact Or.inl ⟨h, by rw [if_pos h]⟩
    · obtain ⟨n, rfl⟩ := Int.eq_ofNat_of_zero_le (show 0 ≤ i by omega)
      refine Or.inr ⟨n, rfl, ?_⟩
      rw [if_neg h, Int.toNat_natCast]
      rcases hp : s.inputs[n]? with _ | p
      · exact Or.inl ⟨rfl, rfl⟩
      · exact Or.inr ⟨p, rfl, rfl⟩
  refine ⟨fun p => ?_, ?_, fun p => ?_, ?_, fun p => ?_, rfl, fun p => ?_⟩
  · rcases h0 i with ⟨h, h'⟩ | ⟨n, rfl, ⟨h, h'⟩ | ⟨q, h, h'⟩⟩ <;> rw [h']
    · constructor
      · nofun
      · rintro ⟨n, rfl, _⟩; omega
    · constructor
      · nofun
      · rintro ⟨m, hm, hp⟩
        obtain rfl : n = m := by omega
        rw [h] at hp
        cases hp
    · constructor
      · intro e; cases e; exact ⟨n, rfl, h⟩
      · rintro ⟨m, hm, hp⟩
        obtain rfl : n = m := by omega
        rw [h] at hp
        cases hp
        rfl
  · rcases h0 i with ⟨h, h'⟩ | ⟨n, rfl, ⟨h, h'⟩ | ⟨q, h, h'⟩⟩ <;> rw [h']
    · simp [h]
    · have := List.getElem?_eq_none_iff.mp h
      simp [this]
    · have := (List.getElem?_eq_some_iff.mp h).1
      simp
      omega
  · rcases s with ⟨inputs, m, o, e⟩
    rcases inputs with _ | ⟨a, _ | ⟨b, l⟩⟩ <;>
      simp [onlyInput, throwUnless, getInput, bind, Except.bind]
  · rcases s with ⟨inputs, m, o, e⟩
    rcases inputs with _ | ⟨a, _ | ⟨b, l⟩⟩ <;>
      simp [onlyInput, throwUnless, getInput, bind, Except.bind]
  · rcases s with ⟨inputs, m, o, e⟩
    rcases inputs with _ | ⟨a, l⟩ <;>
      simp [select, getInput, bind, Except.bind, pure, Except.pure, eq_comm]
  · unfold select
    rcases h0 i with ⟨h, h'⟩ | ⟨n, rfl, ⟨h, h'⟩ | ⟨q, h, h'⟩⟩ <;>
      simp [h', bind, Except.bind, pure, Except.pure]
    exact eq_comm

/-! ### Values of input ports -/

/-- After declarations none of which is of an input port without a model, the input ports and the values allocated for them are those
that were declared, also if some of the declarations threw, and a context can be made, in which no port has a value. -/
theorem input_ports_as_declared (unset : K) (ds : List (Decl K V)) (hds : ∀ d ∈ ds, d.plain = false) (s : System K V)
    (h : history fresh ds = some s) :
    (s.inputs = (declared ds).map fun p => ⟨p.name, p.size⟩) ∧
    (∀ (i : Nat) p, (declared ds)[i]? = some p → allocate unset s i ⟨p.name, p.size⟩ = .ok p.model ∧
      ∀ n, p.size = some n → ∃ xs, p.model = .vector xs ∧ xs.length = n ∧ allocateVector unset s i ⟨p.name, p.size⟩ = .ok xs) ∧
    ∃ c, makeContext unset s = .ok c ∧ ∀ i, evalOptional c i = none := by
  have k := keeps_history ds hds keeps_fresh h
  refine ⟨k.inputs, fun i p hp => ⟨keeps_allocate unset k hp, fun n hn => keeps_allocateVector unset k hp hn⟩, _,
    keeps_makeContext unset k, ?_⟩
  intro i
  unfold evalOptional
  dsimp only
  rw [List.getElem?_replicate]
  split <;> rfl

example : (∀ d ∈ namedPortDecls, d.plain = false) ∧
    declared namedPortDecls = [⟨['u', '0'], some 2, .vector [5, 6]⟩, ⟨['a'], none, .other 3 7⟩] := by decide +kernel

/-- A call that fixes the value of a port succeeds exactly if the value suits the port; a value that does not is refused by an exception, and
the context is as before.  An index that is out of range ends the program. -/
theorem fix_value_checked (unset : K) (ds : List (Decl K V)) (hds : ∀ d ∈ ds, d.plain = false) (s : System K V)
    (h : history fresh ds = some s) (c₀ c : Context K V) (hc : makeContext unset s = .ok c₀) (os : List (Int × Datum K V))
    (hos : fixes c₀ os = some c) (i : Int) (d : Datum K V) :
    ((fixInput c i d).2 = .ok () ↔ ∃ (n : Nat) (p : Declared K V), i = n ∧ (declared ds)[n]? = some p ∧ p.suits d = true) ∧
    ((fixInput c i d).2 = .error .throws ↔
      ∃ (n : Nat) (p : Declared K V), i = n ∧ (declared ds)[n]? = some p ∧ p.suits d = false) ∧
    ((fixInput c i d).2 = .error .aborts ↔ i < 0 ∨ ((declared ds).length : Int) ≤ i) ∧
    (∀ e, (fixInput c i d).2 = .error e → (fixInput c i d).1 = c) ∧
    (∀ (n : Nat) (p : Declared K V), (declared ds)[n]? = some p → fixValue c n ⟨p.name, p.size⟩ d = fixInput c n d) := by
  have k := keeps_history ds hds keeps_fresh h
  rw [show ds.foldl withDecl [] = declared ds from rfl] at k
  rw [keeps_makeContext unset k] at hc
  cases hc
  have f := fits_fixes os (fits_fresh (declared ds)) hos
  refine ⟨?_, ?_, ?_, ?_, fun n p hp => fixValue_eq f n p hp d⟩ <;>
    (by_cases hi : i < 0 ∨ (c.values.length : Int) ≤ i
     · rw [fixInput_out i hi]
       have hi' := hi
       rw [f.length] at hi'
       simp only [hi', reduceCtorEq, false_iff, not_exists, not_and, Except.error.injEq, imp_true_iff]
       try
         rintro n p rfl hp
         have := (List.getElem?_eq_some_iff.mp hp).1
         omega
     · obtain ⟨n, rfl⟩ := Int.eq_ofNat_of_zero_le (show 0 ≤ i by omega)
       rw [f.length] at hi
       have hn : n < (declared ds).length := by omega
       have hg := List.getElem?_eq_getElem hn
       rw [fixInput_of f.checkers f.length n _ hg]
       by_cases hs : (declared ds)[n].suits d = true
       · rw [if_pos hs]
         first
         | exact ⟨fun _ => ⟨n, _, rfl, hg, hs⟩, fun _ => rfl⟩
         | (refine ⟨nofun, ?_⟩
            rintro ⟨m, p, hm, hp, hs'⟩
            obtain rfl : n = m := by omega
            rw [hg] at hp
            cases hp
            rw [hs] at hs'
            cases hs')
         | exact ⟨nofun, fun h => absurd h hi⟩
         | nofun
       · rw [if_neg hs]
         first
         | exact ⟨fun _ => ⟨n, _, rfl, hg, by simpa using hs⟩, fun _ => rfl⟩
         | (refine ⟨nofun, ?_⟩
            rintro ⟨m, p, hm, hp, hs'⟩
            obtain rfl : n = m := by omega
            rw [hg] at hp
            cases hp
            exact absurd hs' hs)
         | exact ⟨nofun, fun h => absurd h hi⟩
         | exact fun _ _ => rfl)

/-- A port has the value that was last fixed for it among those that suit it, whatever other values were fixed or refused; as a vector too,
which a vector port always has and an abstract port never. -/
theorem fixed_value_is_last (unset : K) (ds : List (Decl K V)) (hds : ∀ d ∈ ds, d.plain = false) (s : System K V)
    (h : history fresh ds = some s) (c₀ c : Context K V) (hc : makeContext unset s = .ok c₀) (os : List (Int × Datum K V))
    (hos : fixes c₀ os = some c) (i : Nat) :
    evalOptional c i = lastFixed (declared ds) i os ∧
    (∀ d, eval c i = .ok d ↔ lastFixed (declared ds) i os = some d) ∧
    (eval c i = .error .throws ↔ lastFixed (declared ds) i os = none) ∧
    (∀ p, (declared ds)[i]? = some p →
      (∀ n, p.size = some n → (lastFixed (declared ds) i os = none ∧ evalVector s c i = .ok none) ∨
        ∃ xs, xs.length = n ∧ lastFixed (declared ds) i os = some (.vector xs) ∧ evalVector s c i = .ok (some xs)) ∧
      (p.size = none → evalVector s c i = .error .throws)) ∧
    ((declared ds)[i]? = none → evalVector s c i = .error .outOfRange) := by
  have k := keeps_history ds hds keeps_fresh h
  rw [show ds.foldl withDecl [] = declared ds from rfl] at k
  rw [keeps_makeContext unset k] at hc
  cases hc
  have f := fits_fixes os (fits_fresh (declared ds)) hos
  have hv : evalOptional c i = lastFixed (declared ds) i os := by
    unfold lastFixed
    rcases hp : (declared ds)[i]? with _ | p
    · unfold evalOptional
      rw [List.getElem?_eq_none (by rw [f.length]; exact List.getElem?_eq_none_iff.mp hp)]
      rfl
    · rw [value_fixes os (fits_fresh (declared ds)) hos i p hp]
      have : evalOptional (⟨(declared ds).map checkerOf, List.replicate (declared ds).length none⟩ : Context K V) i = none := by
        unfold evalOptional
        dsimp only
        rw [List.getElem?_replicate]
        split <;> rfl
      rw [this, Option.or_none]
  have hin : s.inputs[i]? = ((declared ds)[i]?).map fun p => ⟨p.name, p.size⟩ := by
    rw [k.inputs, List.getElem?_map]
  have hget : getInput s (i : Int) = match s.inputs[i]? with | none => .error .outOfRange | some p => .ok p := by
    unfold getInput
    rw [if_neg (by omega), Int.toNat_natCast]
    cases s.inputs[i]? <;> rfl
  refine ⟨hv, fun d => ?_, ?_, ?_, ?_⟩
  · unfold eval
    rw [hv]
    cases lastFixed (declared ds) i os <;> simp
  · unfold eval
    rw [hv]
    cases lastFixed (declared ds) i os <;> simp
  · intro p hp
    rw [hp] at hin
    rw [hin] at hget
    constructor
    · intro n hn
      unfold evalVector
      rw [hget]
      simp only [Option.map_some, bind, Except.bind, hn, Int.toNat_natCast, hv]
      rcases hl : lastFixed (declared ds) i os with _ | d
      · exact Or.inl ⟨rfl, rfl⟩
      · refine Or.inr ?_
        have hval : c.values[i]? = some (some d) := by
          have e := hv.trans hl
          unfold evalOptional at e
          rcases hc : c.values[i]? with _ | x
          · rw [hc] at e
            cases e
          · rw [hc] at e
            rw [show x = some d from e]
        have hs := f.suits i p d hp hval
        unfold Declared.suits at hs
        rw [hn] at hs
        cases d with
        | other t v => cases hs
        | vector xs =>
          have hx : xs.length = n := by simpa using hs
          exact ⟨xs, hx, rfl, by simp [demand, hx, pure, Except.pure]⟩
    · intro hn
      unfold evalVector
      rw [hget]
      simp only [Option.map_some, bind, Except.bind, hn]
  · intro hp
    rw [hp] at hin
    rw [hin] at hget
    unfold evalVector
    rw [hget]
    rfl

/-- The context of the example system. -/
def namedPortContext : Context Nat Nat := ⟨[.size 2, .type (some 3)], [none, none]⟩

example : makeContext 0 namedPortSystem = .ok namedPortContext ∧
    fixes namedPortContext [(0, .vector [1, 2]), (1, .other 3 9), (0, .vector [8]), (1, .other 4 1)] =
      some ⟨[.size 2, .type (some 3)], [some (.vector [1, 2]), some (.other 3 9)]⟩ := by decide +kernel

/-- `AllocateFixedInputs` always succeeds, whatever was fixed before, and gives each port its model. -/
theorem fix_all_inputs (unset : K) (ds : List (Decl K V)) (hds : ∀ d ∈ ds, d.plain = false) (s : System K V)
    (h : history fresh ds = some s) (c₀ c : Context K V) (hc : makeContext unset s = .ok c₀) (os : List (Int × Datum K V))
    (hos : fixes c₀ os = some c) :
    ∃ c', fixAll unset s 0 s.inputs c = (c', .ok ()) ∧
      ∀ (i : Nat) p, (declared ds)[i]? = some p → eval c' i = .ok p.model := by
  have k := keeps_history ds hds keeps_fresh h
  rw [show ds.foldl withDecl [] = declared ds from rfl] at k
  rw [keeps_makeContext unset k] at hc
  cases hc
  have f := fits_fixes os (fits_fresh (declared ds)) hos
  obtain ⟨c', h₁, _, _, h₄⟩ := fixAll_from unset k (declared ds) 0 c f (fun j p hp => by simpa using hp)
  refine ⟨c', by rw [k.inputs]; exact h₁, fun i p hp => ?_⟩
  have := h₄ i p hp
  rw [Nat.zero_add] at this
  unfold eval
  rw [this]

/-- A vector that is put in place of a fixed value by way of `GetMutableData` is not checked for its size, and the next evaluation ends the
program. -/
theorem overwritten_vector_aborts :
    ∃ (s : System Nat Nat) (c c₁ c₂ : Context Nat Nat), history fresh [.vectorInput none [5, 6]] = some s ∧ makeContext 0 s = .ok c ∧
      fixInput c 0 (.vector [1, 2]) = (c₁, .ok ()) ∧ overwrite c₁ 0 (.vector [1, 2, 3]) = (c₂, .ok ()) ∧
      evalVector s c₂ 0 = .error .aborts :=
  ⟨⟨[⟨['u', '0'], some 2⟩], [some (.vector [5, 6])], [], 0⟩, ⟨[.size 2], [none]⟩, ⟨[.size 2], [some (.vector [1, 2])]⟩,
    ⟨[.size 2], [some (.vector [1, 2, 3])]⟩, by decide +kernel⟩

/-- The model of a declaration that threw becomes the model of the next input port without one: values of that port's size are then refused,
and a value that is accepted ends the program when it is evaluated as a vector. -/
theorem stale_model_used :
    ∃ (s : System Nat Nat) (c c₁ : Context Nat Nat),
      history fresh [.vectorInput (some ['a']) [5, 6], .vectorInput (some ['a']) [1], .plainInput (some ['b']) (some 3)] = some s ∧
      s.inputs = [⟨['a'], some 2⟩, ⟨['b'], some 3⟩] ∧ makeContext 0 s = .ok c ∧
      (fixInput c 1 (.vector [1, 2, 3])).2 = .error .throws ∧ fixInput c 1 (.vector [4]) = (c₁, .ok ()) ∧
      evalVector s c₁ 1 = .error .aborts :=
  ⟨⟨[⟨['a'], some 2⟩, ⟨['b'], some 3⟩], [some (.vector [5, 6]), some (.vector [1])], [], 0⟩, ⟨[.size 2, .size 1], [none, none]⟩,
    ⟨[.size 2, .size 1], [none, some (.vector [4])]⟩, by decide +kernel⟩

/-- An abstract input port that is declared without a model: no context can be made. -/
theorem abstract_port_needs_model (unset : K) (s : System K V) (i : Nat) (p : InPort) (hp : s.inputs[i]? = some p) (ha : p.size = none)
    (hm : cloneModel s.models i = none) : ∃ e, makeContext unset s = .error e := by
  have key : ∀ (l : List InPort) (k j : Nat) (c : Context K V), l[j]? = some p → k + j = i →
      ∃ e, addPorts unset s k l c = .error e := by
    intro l
    induction l with
    | nil => intro k j c hj; simp at hj
    | cons q l ih =>
      intro k j c hj hk
      rw [addPorts]
      rcases hq : makeChecker unset s k q with e | ch
      · exact ⟨e, rfl⟩
      · cases j with
        | zero =>
          exfalso
          simp only [List.getElem?_cons_zero, Option.some.injEq] at hj
          subst hj
          obtain rfl : k = i := by omega
          unfold makeChecker at hq
          rw [ha] at hq
          unfold allocate at hq
          rw [hm, ha] at hq
          cases hq
        | succ j => exact ih (k + 1) j _ (by simpa using hj) (by omega)
  exact key s.inputs 0 i _ hp (by omega)

example : makeContext 0 (⟨[⟨['u', '0'], none⟩], [], [], 0⟩ : System Nat Nat) = .error .throws := by decide +kernel

end Maliput.Props
