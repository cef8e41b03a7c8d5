import Verif.Lemmas.LeafDefaults

set_option autoImplicit false

open Maliput.SysState (Mem Discrete Abstract State Parameters valuesAt_some map_getElem map_append_left map_fresh mem_lt map_set_notMem map_set_getElem
  told_cast Told getValue_some map_valuesAt)

namespace Maliput.LeafDefaults
open Maliput StateVec TypeErasure LeafDefaults.Spec

variable {K V : Type}

/-! ### What stays true of the values -/

/-- All abstract values have such types. -/
def AllIn (S : CType → Prop) (d : Data K V) : Prop := (∀ v ∈ d.abstract, S v.type) ∧ ∀ v ∈ d.parameters, S v.type

/-- What is true of each object. -/
def Good (S : CType → Prop) (ps : List (Plain K V)) : Plain K V → Prop
  | .vector _ => True
  | .value v => S v.type
  | .system nq nv nz d => (d.continuous.length : Int) = nq + nv + nz ∧ AllIn S d
  | .context s nq nv nz x => x.continuous.length = nq + nv + nz ∧ AllIn S x ∧
      ∃ a b c d, ps[s]? = some (.system a b c d) ∧ Fits d x

def WF (S : CType → Prop) (ps : List (Plain K V)) : Prop := ∀ (i : Nat) (p : Plain K V), ps[i]? = some p → Good S ps p

theorem wf_add {S : CType → Prop} {ps : List (Plain K V)} (h : WF S ps) {p : Plain K V} (hp : Good S ps p) : WF S (ps ++ [p]) := by
  have up : ∀ q, Good S ps q → Good S (ps ++ [p]) q := by
    intro q hq
    cases q <;> simp only [Good] at hq ⊢
    · exact hq
    · exact hq
    · obtain ⟨h1, h2, a, b, c, d, h3, h4⟩ := hq
      exact ⟨h1, h2, a, b, c, d, by rw [List.getElem?_append_left (List.getElem?_eq_some_iff.1 h3).1]; exact h3, h4⟩
  intro i q hq
  by_cases hi : i < ps.length
  · rw [List.getElem?_append_left hi] at hq
    exact up q (h i q hq)
  · rw [List.getElem?_append_right (by omega)] at hq
    have hz : i - ps.length = 0 := by
      have := (List.getElem?_eq_some_iff.1 hq).1
      simp at this
      omega
    rw [hz] at hq
    simp only [List.getElem?_cons_zero, Option.some.injEq] at hq
    subst hq
    exact up p hp

theorem wf_set {S : CType → Prop} {ps : List (Plain K V)} (h : WF S ps) {i : Nat} {old p : Plain K V} (hi : ps[i]? = some old)
    (hp : Good S ps p) (hs : ∀ a b c d, old = .system a b c d → ∃ a' b' c' d', p = .system a' b' c' d' ∧ ∀ x, Fits d x → Fits d' x) :
    WF S (ps.set i p) := by
  have hl := (List.getElem?_eq_some_iff.1 hi).1
  have up : ∀ q, Good S ps q → Good S (ps.set i p) q := by
    intro q hq
    cases q <;> simp only [Good] at hq ⊢
    · exact hq
    · exact hq
    · rename_i s nq nv nz x
      obtain ⟨h1, h2, a, b, c, d, h3, h4⟩ := hq
      refine ⟨h1, h2, ?_⟩
      by_cases e : i = s
      · subst e
        rw [hi] at h3
        injection h3 with h3
        obtain ⟨a', b', c', d', e1, e2⟩ := hs a b c d h3
        exact ⟨a', b', c', d', by rw [List.getElem?_set_self hl, e1], e2 x h4⟩
      · exact ⟨a, b, c, d, by rw [List.getElem?_set_ne e]; exact h3, h4⟩
  intro j q hq
  by_cases e : i = j
  · subst e
    rw [List.getElem?_set_self hl] at hq
    injection hq with hq
    subst hq
    exact up p hp
  · rw [List.getElem?_set_ne e] at hq
    exact up q (h j q hq)

theorem fits_refl (d : Data K V) : Fits d d := ⟨List.prefix_refl _, List.prefix_refl _, List.prefix_refl _, List.prefix_refl _⟩

theorem replacedVector_length (old xs : List K) : (replacedVector old xs).1.length = old.length := by
  rw [replacedVector]
  split
  · assumption
  · rfl

theorem replacedGroup_map (groups : List (List K)) (g : Int) (xs : List K) :
    (replacedGroup groups g xs).1.map List.length = groups.map List.length := by
  rw [replacedGroup]
  split
  · split
    · rename_i old ho
      obtain ⟨hl, rfl⟩ := List.getElem?_eq_some_iff.1 ho
      apply List.ext_getElem
      · simp
      · intro i h1 h2
        simp only [List.getElem_map, List.getElem_set]
        split
        · rename_i e
          subst e
          exact replacedVector_length _ _
        · rfl
    · rfl
  · rfl

theorem replacedValue_type (old : Value V) (t : CType) (x : V) : (replacedValue old t x).1.type = old.type := by
  rw [replacedValue]
  split
  · assumption
  · rfl

theorem replacedAbstract_map (armed : Bool) (vs : List (Value V)) (k : Int) (t : CType) (x : V) :
    (replacedAbstract armed vs k t x).1.map (·.type) = vs.map (·.type) := by
  rw [replacedAbstract]
  split
  · split
    · rename_i old ho
      obtain ⟨hl, rfl⟩ := List.getElem?_eq_some_iff.1 ho
      apply List.ext_getElem
      · simp
      · intro i h1 h2
        simp only [List.getElem_map, List.getElem_set]
        split
        · rename_i e
          subst e
          exact replacedValue_type _ _ _
        · rfl
    · rfl
  · rfl

theorem types_of_map {S : CType → Prop} {vs us : List (Value V)} (h : us.map (·.type) = vs.map (·.type)) (hv : ∀ v ∈ vs, S v.type) :
    ∀ u ∈ us, S u.type := by
  intro u hu
  have : u.type ∈ vs.map (·.type) := h ▸ List.mem_map.2 ⟨u, hu, rfl⟩
  obtain ⟨v, hv', e⟩ := List.mem_map.1 this
  exact e ▸ hv v hv'

theorem take_map_eq {α β : Type} (f : α → β) {xs ys : List α} (h : xs.map f <+: ys.map f) : (ys.take xs.length).map f = xs.map f := by
  rw [List.map_take]
  have := List.prefix_iff_eq_take.1 h
  rw [List.length_map] at this
  exact this.symm

theorem withState_good {S : CType → Prop} (armed : Bool) {d x : Data K V} (hf : Fits d x) (hd : AllIn S d) (hx : AllIn S x) :
    (x.withState armed d).1.continuous.length = x.continuous.length ∧ Fits d (x.withState armed d).1 ∧ AllIn S (x.withState armed d).1 := by
  unfold Data.withState
  split
  · exact ⟨rfl, hf, hx⟩
  rename_i h1
  split
  · exact ⟨by simp at h1; simp [h1], ⟨hf.discrete, hf.abstract, hf.numeric, hf.parameters⟩, hx⟩
  split
  · exact ⟨by simp at h1; simp [h1], ⟨List.prefix_refl _, hf.abstract, hf.numeric, hf.parameters⟩, hx⟩
  · refine ⟨by simp at h1; simp [h1], ⟨List.prefix_refl _, ?_, hf.numeric, hf.parameters⟩, ?_, hx.2⟩
    · dsimp only
      rw [take_map_eq _ hf.abstract]
      exact hf.abstract
    · exact fun v hv => hd.1 v (List.mem_of_mem_take hv)

theorem withParameters_good {S : CType → Prop} {d x : Data K V} (hf : Fits d x) (hd : AllIn S d) (hx : AllIn S x) :
    (x.withParameters d).continuous.length = x.continuous.length ∧ Fits d (x.withParameters d) ∧ AllIn S (x.withParameters d) := by
  refine ⟨rfl, ⟨hf.discrete, hf.abstract, ?_, ?_⟩, hx.1, ?_⟩
  · simp only [Data.withParameters]
    rw [take_map_eq _ hf.numeric]
    exact hf.numeric
  · simp only [Data.withParameters]
    rw [take_map_eq _ hf.parameters]
    exact hf.parameters
  · exact fun v hv => hd.2 v (List.mem_of_mem_take hv)

theorem withDefaults_good {S : CType → Prop} (armed : Bool) {d x : Data K V} (hf : Fits d x) (hd : AllIn S d) (hx : AllIn S x) :
    (x.withDefaults armed d).1.continuous.length = x.continuous.length ∧ Fits d (x.withDefaults armed d).1 ∧
      AllIn S (x.withDefaults armed d).1 := by
  have h := withState_good (S := S) armed hf hd hx
  unfold Data.withDefaults
  generalize x.withState armed d = r at h
  obtain ⟨y, r⟩ := r
  cases r with
  | none =>
    have := withParameters_good h.2.1 hd h.2.2
    exact ⟨by rw [this.1]; exact h.1, this.2⟩
  | some e => exact h

theorem written_fst (ps : List (Plain K V)) (i : Nat) (p : Plain K V) (e : Option Err) : (written ps i p e).1 = ps.set i p := by
  cases e <;> rfl

theorem wf_context {S : CType → Prop} {ps : List (Plain K V)} (h : WF S ps) {i s nq nv nz : Nat} {x y : Data K V}
    (hi : ps[i]? = some (.context s nq nv nz x)) (hc : y.continuous.length = x.continuous.length) (hS : AllIn S y)
    (hf : ∀ d, Fits d x → Fits d y) : WF S (ps.set i (.context s nq nv nz y)) := by
  obtain ⟨h1, _, a, b, c, d, h3, h4⟩ := h i _ hi
  exact wf_set h hi ⟨by omega, hS, a, b, c, d, h3, hf d h4⟩ nofun

theorem meant_wf [Zero K] {S : CType → Prop} {armed : Bool} {ps : List (Plain K V)} (h : WF S ps) {op : Op K V} (ho : TypesIn S op) :
    WF S (meant armed ps op).1 := by
  have hmade : ∀ i, WF S (meant.made ps i).1 := by
    intro i
    rw [meant.made]
    split
    · rename_i nq nv nz d hi
      split
      · rename_i hc
        have hg := h i _ hi
        exact wf_add h ⟨by have := hg.1; omega, hg.2, nq, nv, nz, d, hi, fits_refl d⟩
      · exact h
    · exact h
  cases op with
  | newVector xs => exact wf_add h trivial
  | newValue v => exact wf_add h ho
  | newSystem => exact wf_add h ⟨by simp, by simp [AllIn]⟩
  | setVector i xs =>
    simp only [meant]
    split
    · rename_i old hi
      rw [written_fst]
      exact wf_set h hi trivial nofun
    · exact h
  | setValue i t x =>
    simp only [meant]
    split
    · rename_i old hi
      rw [written_fst]
      refine wf_set h hi ?_ nofun
      rw [Good, replacedValue_type]
      exact h i _ hi
    · exact h
  | declareContinuous i j nq nv nz =>
    simp only [meant]
    split
    · rename_i d xs hi hj
      split
      · rename_i hc
        refine wf_set h hi ⟨hc, (h i _ hi).2⟩ ?_
        rintro a b c d' ⟨⟩
        exact ⟨_, _, _, _, rfl, fun x hx => ⟨hx.1, hx.2, hx.3, hx.4⟩⟩
      · exact h
    · exact h
  | declareMisc i j =>
    simp only [meant]
    split
    · rename_i d xs hi hj
      refine wf_set h hi ⟨by simp, (h i _ hi).2⟩ ?_
      rintro a b c d' ⟨⟩
      exact ⟨_, _, _, _, rfl, fun x hx => ⟨hx.1, hx.2, hx.3, hx.4⟩⟩
    · exact h
  | declareContinuousSizes i nq nv nz =>
    simp only [meant]
    split
    · rename_i d hi
      split
      · rename_i hc
        refine wf_set h hi ⟨by simp; omega, (h i _ hi).2⟩ ?_
        rintro a b c d' ⟨⟩
        exact ⟨_, _, _, _, rfl, fun x hx => ⟨hx.1, hx.2, hx.3, hx.4⟩⟩
      · exact h
    · exact h
  | declareDiscrete i j =>
    simp only [meant]
    split
    · rename_i nq nv nz d xs hi hj
      refine wf_set h hi ⟨(h i _ hi).1, (h i _ hi).2⟩ ?_
      rintro a b c d' ⟨⟩
      exact ⟨_, _, _, _, rfl, fun x hx => ⟨hx.1.trans (by simp), hx.2, hx.3, hx.4⟩⟩
    · exact h
  | declareDiscreteSize i n =>
    simp only [meant]
    split
    · rename_i nq nv nz d hi
      split
      · refine wf_set h hi ⟨(h i _ hi).1, (h i _ hi).2⟩ ?_
        rintro a b c d' ⟨⟩
        exact ⟨_, _, _, _, rfl, fun x hx => ⟨hx.1.trans (by simp), hx.2, hx.3, hx.4⟩⟩
      · exact h
    · exact h
  | declareAbstract i j =>
    simp only [meant]
    split
    · rename_i nq nv nz d v hi hj
      have hg := h i _ hi
      have hv : S v.type := h j _ hj
      refine wf_set h hi ⟨hg.1, ?_, hg.2.2⟩ ?_
      · intro u hu
        rcases List.mem_append.1 hu with hu | hu
        · exact hg.2.1 u hu
        · rw [List.mem_singleton.1 hu]
          exact hv
      · rintro a b c d' ⟨⟩
        exact ⟨_, _, _, _, rfl, fun x hx => ⟨hx.1, hx.2.trans (by simp), hx.3, hx.4⟩⟩
    · exact h
  | declareNumeric i j =>
    simp only [meant]
    split
    · rename_i nq nv nz d xs hi hj
      refine wf_set h hi ⟨(h i _ hi).1, (h i _ hi).2⟩ ?_
      rintro a b c d' ⟨⟩
      exact ⟨_, _, _, _, rfl, fun x hx => ⟨hx.1, hx.2, hx.3.trans (by simp), hx.4⟩⟩
    · exact h
  | declareParameter i j =>
    simp only [meant]
    split
    · rename_i nq nv nz d v hi hj
      have hg := h i _ hi
      have hv : S v.type := h j _ hj
      refine wf_set h hi ⟨hg.1, hg.2.1, ?_⟩ ?_
      · intro u hu
        rcases List.mem_append.1 hu with hu | hu
        · exact hg.2.2 u hu
        · rw [List.mem_singleton.1 hu]
          exact hv
      · rintro a b c d' ⟨⟩
        exact ⟨_, _, _, _, rfl, fun x hx => ⟨hx.1, hx.2, hx.3, hx.4.trans (by simp)⟩⟩
    · exact h
  | allocate i => exact hmade i
  | create i => exact hmade i
  | setDefault i j =>
    simp only [meant]
    split
    · rename_i d s nq nv nz x hi hj
      split
      · rename_i e
        subst e
        rw [written_fst]
        obtain ⟨h1, h2, a, b, c, d', h3, h4⟩ := h j _ hj
        rw [hi] at h3
        injection h3 with h3
        injection h3 with _ _ _ h3
        subst h3
        have hg := withDefaults_good armed h4 (h s _ hi).2 h2
        exact wf_set h hj ⟨by rw [hg.1]; exact h1, hg.2.2, _, _, _, _, hi, hg.2.1⟩ nofun
      · exact h
    · exact h
  | setDefaultState i j k =>
    simp only [meant]
    split
    · rename_i d s _ _ _ _ s' nq nv nz x hi hj hk
      split
      · rename_i e
        obtain ⟨e1, e2⟩ := e
        subst e2
        rw [written_fst]
        obtain ⟨h1, h2, a, b, c, d', h3, h4⟩ := h k _ hk
        rw [hi] at h3
        injection h3 with h3
        injection h3 with _ _ _ h3
        subst h3
        have hg := withState_good armed h4 (h s' _ hi).2 h2
        exact wf_set h hk ⟨by rw [hg.1]; exact h1, hg.2.2, _, _, _, _, hi, hg.2.1⟩ nofun
      · exact h
    · exact h
  | setDefaultParameters i j k =>
    simp only [meant]
    split
    · rename_i d s _ _ _ _ s' nq nv nz x hi hj hk
      split
      · rename_i e
        obtain ⟨e1, e2⟩ := e
        subst e2
        rw [written_fst]
        obtain ⟨h1, h2, a, b, c, d', h3, h4⟩ := h k _ hk
        rw [hi] at h3
        injection h3 with h3
        injection h3 with _ _ _ h3
        subst h3
        have hg := withParameters_good h4 (h s' _ hi).2 h2
        exact wf_set h hk ⟨by rw [hg.1]; exact h1, hg.2.2, _, _, _, _, hi, hg.2.1⟩ nofun
      · exact h
    · exact h
  | setContinuous i xs =>
    simp only [meant]
    split
    · rename_i s nq nv nz x hi
      split
      · rename_i hl
        rw [written_fst]
        exact wf_context h hi hl (h i _ hi).2.1 fun d hd => ⟨hd.1, hd.2, hd.3, hd.4⟩
      · exact h
    · exact h
  | setDiscrete i g xs =>
    simp only [meant]
    split
    · rename_i s nq nv nz x hi
      rw [written_fst]
      exact wf_context h hi rfl (h i _ hi).2.1 fun d hd =>
        ⟨by dsimp only; rw [replacedGroup_map]; exact hd.1, hd.2, hd.3, hd.4⟩
    · exact h
  | setAbstract i k t v =>
    simp only [meant]
    split
    · rename_i s nq nv nz x hi
      rw [written_fst]
      have hg := (h i _ hi).2.1
      exact wf_context h hi rfl ⟨types_of_map (replacedAbstract_map armed x.abstract k t v) hg.1, hg.2⟩ fun d hd =>
        ⟨hd.1, by dsimp only; rw [replacedAbstract_map]; exact hd.2, hd.3, hd.4⟩
    · exact h
  | setNumeric i g xs =>
    simp only [meant]
    split
    · rename_i s nq nv nz x hi
      rw [written_fst]
      exact wf_context h hi rfl (h i _ hi).2.1 fun d hd =>
        ⟨hd.1, hd.2, by dsimp only; rw [replacedGroup_map]; exact hd.3, hd.4⟩
    · exact h
  | setParameter i k t v =>
    simp only [meant]
    split
    · rename_i s nq nv nz x hi
      rw [written_fst]
      have hg := (h i _ hi).2.1
      exact wf_context h hi rfl ⟨hg.1, types_of_map (replacedAbstract_map armed x.parameters k t v) hg.2⟩ fun d hd =>
        ⟨hd.1, hd.2, hd.3, by dsimp only; rw [replacedAbstract_map]; exact hd.4⟩
    · exact h

/-! ### Every operation does what is meant -/

/-- The same result, and the objects are the values afterwards. -/
def Agrees (r : World K V × Except Err Int) (r' : List (Plain K V) × Except Err Int) : Prop := r.2 = r'.2 ∧ Refines r.1 r'.1

section
variable {w : World K V} {ps : List (Plain K V)} {ov ox : Nat → Option Nat}

theorem agrees_same (h : Inv w ps ov ox) (e : Except Err Int) : Agrees (w, e) (ps, e) := ⟨rfl, ov, ox, h⟩

theorem agrees_skip (h : Inv w ps ov ox) {r : World K V × Except Err Int} {r' : List (Plain K V) × Except Err Int}
    (h1 : r = (w, .ok 0)) (h2 : r' = (ps, .ok 0)) : Agrees r r' := by
  rw [h1, h2]
  exact agrees_same h _

theorem on_vector (h : Inv w ps ov ox) (i : Nat) :
    (∃ a xs, w.objs[i]? = some (.vector a) ∧ ps[i]? = some (.vector xs) ∧ w.mem.vectors[a]? = some xs ∧ ov a = some i) ∨
      ((∀ a, w.objs[i]? ≠ some (.vector a)) ∧ ∀ xs, ps[i]? ≠ some (.vector xs)) := by
  cases hp : ps[i]? with
  | none => exact .inr ⟨by simp [lookup_none h hp], nofun⟩
  | some p =>
    obtain ⟨o, ho, hI⟩ := lookup h hp
    cases p <;> cases o <;> simp only [Is] at hI
    · exact .inl ⟨_, _, ho, rfl, hI⟩
    all_goals exact .inr ⟨by simp [ho], nofun⟩

theorem on_value (h : Inv w ps ov ox) (i : Nat) :
    (∃ a v, w.objs[i]? = some (.value a) ∧ ps[i]? = some (.value v) ∧ w.mem.values[a]? = some v ∧ ox a = some i) ∨
      ((∀ a, w.objs[i]? ≠ some (.value a)) ∧ ∀ v, ps[i]? ≠ some (.value v)) := by
  cases hp : ps[i]? with
  | none => exact .inr ⟨by simp [lookup_none h hp], nofun⟩
  | some p =>
    obtain ⟨o, ho, hI⟩ := lookup h hp
    cases p <;> cases o <;> simp only [Is] at hI
    case value.value => exact .inl ⟨_, _, ho, rfl, hI⟩
    all_goals exact .inr ⟨by simp [ho], nofun⟩

theorem on_system (h : Inv w ps ov ox) (i : Nat) :
    (∃ (l : Layout) (nq nv nz : Int) (d : Data K V), w.objs[i]? = some (.system (l.system nq nv nz)) ∧
        ps[i]? = some (.system nq nv nz d) ∧ At w.mem l d ∧ Owns ov ox i l) ∨
      ((∀ s, w.objs[i]? ≠ some (.system s)) ∧ ∀ nq nv nz d, ps[i]? ≠ some (.system nq nv nz d)) := by
  cases hp : ps[i]? with
  | none => exact .inr ⟨by simp [lookup_none h hp], nofun⟩
  | some p =>
    obtain ⟨o, ho, hI⟩ := lookup h hp
    cases p <;> cases o <;> simp only [Is] at hI
    case system.system =>
      obtain ⟨l, rfl, h1, h2⟩ := hI
      exact .inl ⟨l, _, _, _, _, ho, rfl, h1, h2⟩
    all_goals exact .inr ⟨by simp [ho], nofun⟩

theorem on_context (h : Inv w ps ov ox) (i : Nat) :
    (∃ (l : Layout) (s nq nv nz : Nat) (d : Data K V), w.objs[i]? = some (.context (l.context s nq nv nz)) ∧
        ps[i]? = some (.context s nq nv nz d) ∧ At w.mem l d ∧ Owns ov ox i l) ∨
      ((∀ c, w.objs[i]? ≠ some (.context c)) ∧ ∀ s nq nv nz d, ps[i]? ≠ some (.context s nq nv nz d)) := by
  cases hp : ps[i]? with
  | none => exact .inr ⟨by simp [lookup_none h hp], nofun⟩
  | some p =>
    obtain ⟨o, ho, hI⟩ := lookup h hp
    cases p <;> cases o <;> simp only [Is] at hI
    case context.context =>
      obtain ⟨l, rfl, h1, h2⟩ := hI
      exact .inl ⟨l, _, _, _, _, _, ho, rfl, h1, h2⟩
    all_goals exact .inr ⟨by simp [ho], nofun⟩

theorem wrote_agrees {m' : Mem K V} {i : Nat} {p : Plain K V} (e : Option Err) (h : Refines ⟨m', w.objs⟩ (ps.set i p)) :
    Agrees (w.wrote (m', e)) (written ps i p e) := by
  cases e <;> exact ⟨rfl, h⟩

theorem step_append {m : Mem K V} (hs : List (List K)) (vs : List (Value V)) (i : Nat) :
    Step m ⟨m.vectors ++ hs, m.values ++ vs⟩ ov ox i :=
  ⟨by simp, by simp, fun _ ha _ => List.getElem?_append_left ha, fun _ ha _ => List.getElem?_append_left ha⟩

theorem at_append {m : Mem K V} {l : Layout} {d : Data K V} (h : At m l d) (hs : List (List K)) (vs : List (Value V)) :
    At ⟨m.vectors ++ hs, m.values ++ vs⟩ l d :=
  ⟨by rw [← h.continuous]; exact List.getElem?_append_left (List.getElem?_eq_some_iff.1 h.continuous).1,
    map_append_left _ h.discrete, map_append_left _ h.abstract, map_append_left _ h.numeric, map_append_left _ h.parameters⟩

theorem owns_grow {m : Mem K V} {i : Nat} {l : Layout} {nv nx : Nat} (hv : l.vectors.Nodup) (hx : l.values.Nodup)
    (h : ∀ a ∈ l.vectors, (a < m.vectors.length ∧ ov a = some i) ∨ (m.vectors.length ≤ a ∧ a < nv))
    (h' : ∀ a ∈ l.values, (a < m.values.length ∧ ox a = some i) ∨ (m.values.length ≤ a ∧ a < nx)) :
    Owns (grow m.vectors.length nv i ov) (grow m.values.length nx i ox) i l := by
  refine ⟨hv, hx, fun a ha => ?_, fun a ha => ?_⟩
  · rcases h a ha with h | h
    · rw [grow_old h.1, h.2]
    · rw [grow_new h.1 h.2]
  · rcases h' a ha with h | h
    · rw [grow_old h.1, h.2]
    · rw [grow_new h.1 h.2]

/-- A declaration adds a vector or a value. -/
theorem refines_declared (h : Inv w ps ov ox) {i : Nat} {l : Layout} {d : Data K V} (hl : At w.mem l d) (ho : Owns ov ox i l)
    (hs : List (List K)) (vs : List (Value V)) {l' : Layout} {d' : Data K V} (nq nv nz : Int)
    (hl' : At ⟨w.mem.vectors ++ hs, w.mem.values ++ vs⟩ l' d') (hv : l'.vectors.Nodup) (hx : l'.values.Nodup)
    (h1 : ∀ a ∈ l'.vectors, a ∈ l.vectors ∨ w.mem.vectors.length ≤ a) (h2 : ∀ a ∈ l'.values, a ∈ l.values ∨ w.mem.values.length ≤ a) :
    Refines ⟨⟨w.mem.vectors ++ hs, w.mem.values ++ vs⟩, w.objs.set i (.system (l'.system nq nv nz))⟩
      (ps.set i (.system nq nv nz d')) := by
  refine inv_set h (step_append hs vs i) ⟨l', rfl, hl', owns_grow hv hx (fun a ha => ?_) fun a ha => ?_⟩
  · rcases h1 a ha with h | h
    · exact .inl ⟨mem_vectors_lt hl h, ho.vectorsOf a h⟩
    · exact .inr ⟨h, mem_vectors_lt hl' ha⟩
  · rcases h2 a ha with h | h
    · exact .inl ⟨mem_values_lt hl h, ho.valuesOf a h⟩
    · exact .inr ⟨h, mem_values_lt hl' ha⟩

/-- The new vector is that of the continuous variables. -/
theorem refines_continuous (h : Inv w ps ov ox) {i : Nat} {l : Layout} {d : Data K V} (hl : At w.mem l d) (ho : Owns ov ox i l)
    (hs : List (List K)) (xs : List K) (nq nv nz : Int) :
    Refines ⟨⟨w.mem.vectors ++ (hs ++ [xs]), w.mem.values⟩,
      w.objs.set i (.system { l.system nq nv nz with continuous := w.mem.vectors.length + hs.length })⟩
      (ps.set i (.system nq nv nz { d with continuous := xs })) := by
  have hat := at_append hl (hs ++ [xs]) []
  have hfr : w.mem.vectors.length + hs.length ∉ l.discrete ++ l.numeric := fun hm => by
    have := mem_vectors_lt hl (a := w.mem.vectors.length + hs.length) (by simp only [Layout.vectors, List.mem_cons]; exact .inr hm)
    omega
  have := refines_declared h hl ho (hs ++ [xs]) [] (l' := { l with continuous := w.mem.vectors.length + hs.length })
    (d' := { d with continuous := xs }) nq nv nz
    ⟨by simp, hat.discrete, hat.abstract, hat.numeric, hat.parameters⟩
    (List.nodup_cons.2 ⟨hfr, (List.nodup_cons.1 ho.vectors).2⟩) ho.values
    (by
      intro a ha
      rcases List.mem_cons.1 ha with rfl | ha
      · exact .inr (Nat.le_add_right _ _)
      · exact .inl (List.mem_cons_of_mem _ ha))
    (fun a ha => .inl ha)
  simpa only [List.append_nil, Layout.system] using this

/-- The new vector is a group of discrete variables. -/
theorem refines_discrete (h : Inv w ps ov ox) {i : Nat} {l : Layout} {d : Data K V} (hl : At w.mem l d) (ho : Owns ov ox i l)
    (hs : List (List K)) (xs : List K) (nq nv nz : Int) :
    Refines ⟨⟨w.mem.vectors ++ (hs ++ [xs]), w.mem.values⟩,
      w.objs.set i (.system { l.system nq nv nz with discrete := l.discrete ++ [w.mem.vectors.length + hs.length] })⟩
      (ps.set i (.system nq nv nz { d with discrete := d.discrete ++ [xs] })) := by
  have hat := at_append hl (hs ++ [xs]) []
  have hfr : w.mem.vectors.length + hs.length ∉ l.vectors := fun hm => by
    have := mem_vectors_lt hl hm
    omega
  have hp : ({ l with discrete := l.discrete ++ [w.mem.vectors.length + hs.length] } : Layout).vectors.Perm
      ((w.mem.vectors.length + hs.length) :: l.vectors) := by
    rw [List.perm_iff_count]
    intro a
    simp only [Layout.vectors, List.count_cons, List.count_append, List.count_nil]
    omega
  have := refines_declared h hl ho (hs ++ [xs]) [] (l' := { l with discrete := l.discrete ++ [w.mem.vectors.length + hs.length] })
    (d' := { d with discrete := d.discrete ++ [xs] }) nq nv nz
    ⟨hat.continuous, by simp only [List.map_append, hat.discrete]; simp, hat.abstract, hat.numeric, hat.parameters⟩
    (hp.nodup_iff.2 (List.nodup_cons.2 ⟨hfr, ho.vectors⟩)) ho.values
    (by
      intro a ha
      rcases List.mem_cons.1 (hp.mem_iff.1 ha) with rfl | ha
      · exact .inr (Nat.le_add_right _ _)
      · exact .inl ha)
    (fun a ha => .inl ha)
  simpa only [List.append_nil, Layout.system] using this

/-- The new vector is a numeric parameter. -/
theorem refines_numeric (h : Inv w ps ov ox) {i : Nat} {l : Layout} {d : Data K V} (hl : At w.mem l d) (ho : Owns ov ox i l)
    (xs : List K) (nq nv nz : Int) :
    Refines ⟨⟨w.mem.vectors ++ [xs], w.mem.values⟩,
      w.objs.set i (.system { l.system nq nv nz with numeric := l.numeric.map some ++ [some w.mem.vectors.length] })⟩
      (ps.set i (.system nq nv nz { d with numeric := d.numeric ++ [xs] })) := by
  have hat := at_append hl [xs] []
  have hfr : w.mem.vectors.length ∉ l.vectors := fun hm => by
    have := mem_vectors_lt hl hm
    omega
  have hp : ({ l with numeric := l.numeric ++ [w.mem.vectors.length] } : Layout).vectors.Perm (w.mem.vectors.length :: l.vectors) := by
    rw [List.perm_iff_count]
    intro a
    simp only [Layout.vectors, List.count_cons, List.count_append, List.count_nil]
    omega
  have := refines_declared h hl ho [xs] [] (l' := { l with numeric := l.numeric ++ [w.mem.vectors.length] })
    (d' := { d with numeric := d.numeric ++ [xs] }) nq nv nz
    ⟨hat.continuous, hat.discrete, hat.abstract, by simp only [List.map_append, hat.numeric]; simp, hat.parameters⟩
    (hp.nodup_iff.2 (List.nodup_cons.2 ⟨hfr, ho.vectors⟩)) ho.values
    (by
      intro a ha
      rcases List.mem_cons.1 (hp.mem_iff.1 ha) with rfl | ha
      · exact .inr (le_refl _)
      · exact .inl ha)
    (fun a ha => .inl ha)
  simpa only [List.append_nil, Layout.system, List.map_append, List.map_cons, List.map_nil] using this

/-- The new value is an abstract variable. -/
theorem refines_abstract (h : Inv w ps ov ox) {i : Nat} {l : Layout} {d : Data K V} (hl : At w.mem l d) (ho : Owns ov ox i l)
    (v : Value V) (nq nv nz : Int) :
    Refines ⟨⟨w.mem.vectors, w.mem.values ++ [v]⟩,
      w.objs.set i (.system { l.system nq nv nz with abstract := l.abstract.map some ++ [some w.mem.values.length] })⟩
      (ps.set i (.system nq nv nz { d with abstract := d.abstract ++ [v] })) := by
  have hat := at_append hl [] [v]
  have hfr : w.mem.values.length ∉ l.values := fun hm => by
    have := mem_values_lt hl hm
    omega
  have hp : ({ l with abstract := l.abstract ++ [w.mem.values.length] } : Layout).values.Perm (w.mem.values.length :: l.values) := by
    rw [List.perm_iff_count]
    intro a
    simp only [Layout.values, List.count_cons, List.count_append, List.count_nil]
    omega
  have := refines_declared h hl ho [] [v] (l' := { l with abstract := l.abstract ++ [w.mem.values.length] })
    (d' := { d with abstract := d.abstract ++ [v] }) nq nv nz
    ⟨hat.continuous, hat.discrete, by simp only [List.map_append, hat.abstract]; simp, hat.numeric, hat.parameters⟩
    ho.vectors (hp.nodup_iff.2 (List.nodup_cons.2 ⟨hfr, ho.values⟩)) (fun a ha => .inl ha)
    (by
      intro a ha
      rcases List.mem_cons.1 (hp.mem_iff.1 ha) with rfl | ha
      · exact .inr (le_refl _)
      · exact .inl ha)
  simpa only [List.append_nil, Layout.system, List.map_append, List.map_cons, List.map_nil] using this

/-- The new value is an abstract parameter. -/
theorem refines_parameter (h : Inv w ps ov ox) {i : Nat} {l : Layout} {d : Data K V} (hl : At w.mem l d) (ho : Owns ov ox i l)
    (v : Value V) (nq nv nz : Int) :
    Refines ⟨⟨w.mem.vectors, w.mem.values ++ [v]⟩,
      w.objs.set i (.system { l.system nq nv nz with parameters := l.parameters.map some ++ [some w.mem.values.length] })⟩
      (ps.set i (.system nq nv nz { d with parameters := d.parameters ++ [v] })) := by
  have hat := at_append hl [] [v]
  have hfr : w.mem.values.length ∉ l.values := fun hm => by
    have := mem_values_lt hl hm
    omega
  have hp : ({ l with parameters := l.parameters ++ [w.mem.values.length] } : Layout).values.Perm (w.mem.values.length :: l.values) := by
    rw [List.perm_iff_count]
    intro a
    simp only [Layout.values, List.count_cons, List.count_append, List.count_nil]
    omega
  have := refines_declared h hl ho [] [v] (l' := { l with parameters := l.parameters ++ [w.mem.values.length] })
    (d' := { d with parameters := d.parameters ++ [v] }) nq nv nz
    ⟨hat.continuous, hat.discrete, hat.abstract, hat.numeric, by simp only [List.map_append, hat.parameters]; simp⟩
    ho.vectors (hp.nodup_iff.2 (List.nodup_cons.2 ⟨hfr, ho.values⟩)) (fun a ha => .inl ha)
    (by
      intro a ha
      rcases List.mem_cons.1 (hp.mem_iff.1 ha) with rfl | ha
      · exact .inr (le_refl _)
      · exact .inl ha)
  simpa only [List.append_nil, Layout.system, List.map_append, List.map_cons, List.map_nil] using this

/-- Writing to a context. -/
theorem refines_context (h : Inv w ps ov ox) {i s nq nv nz : Nat} {l : Layout} {x y : Data K V}
    (hw : w.objs[i]? = some (.context (l.context s nq nv nz))) (hl : At w.mem l x) (ho : Owns ov ox i l) {m' : Mem K V} (hl' : At m' l y)
    (hk : Kept w.mem m' l) : Refines ⟨m', w.objs⟩ (ps.set i (.context s nq nv nz y)) := by
  refine inv_write h ⟨hk.vectors, hk.values, fun a ha hn => hk.vectorsKept a ha fun hm => hn (ho.vectorsOf a hm),
    fun a ha hn => hk.valuesKept a ha fun hm => hn (ho.valuesOf a hm)⟩ hw ⟨l, rfl, hl', ?_⟩
  exact owns_grow ho.vectors ho.values (fun a ha => .inl ⟨mem_vectors_lt hl ha, ho.vectorsOf a ha⟩)
    fun a ha => .inl ⟨mem_values_lt hl ha, ho.valuesOf a ha⟩

/-! ### Writing -/

theorem writeVector_ok {m : Mem K V} {a : Nat} {old : List K} (ha : m.vectors[a]? = some old) (xs : List K) :
    writeVector m a xs = (⟨m.vectors.set a (replacedVector old xs).1, m.values⟩, (replacedVector old xs).2) := by
  rw [writeVector, basic_setFromVector _ ha, replacedVector]
  by_cases h : xs.length = old.length
  · rw [if_pos h, if_pos h]
  · rw [if_neg h, if_neg h]
    dsimp only
    rw [set_same ha]

theorem writeValue_ok {armed : Bool} {hash : CType → BitVec 64} {S : CType → Prop} (ht : Told armed hash S) {m : Mem K V} {a : Nat}
    {old : Value V} (ha : m.values[a]? = some old) {t : CType} (hS : S t) (hS' : S old.type) (x : V) :
    writeValue armed hash m a t x = (⟨m.vectors, m.values.set a (replacedValue old t x).1⟩, (replacedValue old t x).2) := by
  simp only [writeValue, ha, TypeErasure.setValue, told_cast ht hS hS', replacedValue]
  by_cases h : t = old.type
  · subst h
    simp only [if_true, bind, Except.bind, pure, Except.pure]
  · simp only [if_neg h, bind, Except.bind]
    rw [set_same ha]

theorem writeGroup_ok {m : Mem K V} {as : List Nat} {xss : List (List K)} (h : as.map (m.vectors[·]?) = xss.map some) (hn : as.Nodup)
    (g : Int) (xs : List K) : ∃ h', writeGroup m as g xs = (⟨h', m.values⟩, (replacedGroup xss g xs).2) ∧
      as.map (h'[·]?) = (replacedGroup xss g xs).1.map some ∧ h'.length = m.vectors.length ∧ ∀ a, a ∉ as → h'[a]? = m.vectors[a]? := by
  have hl : as.length = xss.length := by simpa using congrArg List.length h
  by_cases hg : 0 ≤ g ∧ g < as.length
  · have hg' : g.toNat < as.length := by omega
    obtain ⟨old, h1, h2⟩ := map_getElem h hg'
    have e : Discrete.getVector as g = .ok as[g.toNat] := by
      simp only [Discrete.getVector, throwUnless, hg, and_self, decide_true, if_true, bind, Except.bind, List.getElem?_eq_getElem hg']
    refine ⟨m.vectors.set as[g.toNat] (replacedVector old xs).1, ?_, ?_, by simp, fun a ha => ?_⟩
    · rw [writeGroup, e]
      dsimp only
      rw [writeVector_ok h1, replacedGroup, if_pos hg.1, h2]
    · rw [replacedGroup, if_pos hg.1, h2]
      exact map_set_getElem h hn hg' _
    · exact List.getElem?_set_ne fun e => ha (by rw [← e]; exact List.getElem_mem hg')
  · have e : Discrete.getVector as g = .error .throws := by
      simp only [Discrete.getVector, throwUnless, hg, decide_false, Bool.false_eq_true, if_false, bind, Except.bind]
    have e' : replacedGroup xss g xs = (xss, some .throws) := by
      rw [replacedGroup]
      split
      · rw [List.getElem?_eq_none (by omega)]
      · rfl
    rw [writeGroup, e, e']
    exact ⟨m.vectors, rfl, h, rfl, fun _ _ => rfl⟩

theorem writeAbstract_ok {armed : Bool} {hash : CType → BitVec 64} {S : CType → Prop} (ht : Told armed hash S) {m : Mem K V}
    {as : List Nat} {vs : List (Value V)} (h : as.map (m.values[·]?) = vs.map some) (hn : as.Nodup) (hv : ∀ v ∈ vs, S v.type)
    (k : Int) {t : CType} (hS : S t) (x : V) :
    ∃ w', writeAbstract armed hash m (as.map some) k t x = (⟨m.vectors, w'⟩, (replacedAbstract armed vs k t x).2) ∧
      as.map (w'[·]?) = (replacedAbstract armed vs k t x).1.map some ∧ w'.length = m.values.length ∧
      ∀ a, a ∉ as → w'[a]? = m.values[a]? := by
  have hl : as.length = vs.length := by simpa using congrArg List.length h
  by_cases hg : 0 ≤ k ∧ k < as.length
  · have hg' : k.toNat < as.length := by omega
    obtain ⟨old, h1, h2⟩ := map_getElem h hg'
    have e := getValue_some (armed := armed) as hg'
    rw [show ((k.toNat : Nat) : Int) = k by omega] at e
    have hS' : S old.type := hv old (List.mem_of_getElem? h2)
    refine ⟨m.values.set as[k.toNat] (replacedValue old t x).1, ?_, ?_, by simp, fun a ha => ?_⟩
    · rw [writeAbstract, e]
      dsimp only
      rw [writeValue_ok ht h1 hS hS', replacedAbstract, if_pos hg.1, h2]
    · rw [replacedAbstract, if_pos hg.1, h2]
      exact map_set_getElem h hn hg' _
    · exact List.getElem?_set_ne fun e => ha (by rw [← e]; exact List.getElem_mem hg')
  · have e : Abstract.getValue armed (as.map some) k = .error (if armed then .aborts else .ub) := by
      rw [Abstract.getValue, if_neg (by simpa using hg)]
    have e' : replacedAbstract armed vs k t x = (vs, some (if armed then .aborts else .ub)) := by
      rw [replacedAbstract]
      split
      · rw [List.getElem?_eq_none (by omega)]
      · rfl
    rw [writeAbstract, e, e']
    exact ⟨m.values, rfl, h, rfl, fun _ _ => rfl⟩

/-! ### Contexts -/

/-- Where the parts of a new context are. -/
def madeLayout (m : Mem K V) (d : Data K V) : Layout where
  numeric := (List.range d.numeric.length).map (m.vectors.length + ·)
  continuous := m.vectors.length + d.numeric.length
  discrete := (List.range d.discrete.length).map (m.vectors.length + d.numeric.length + 1 + ·)
  parameters := (List.range d.parameters.length).map (m.values.length + ·)
  abstract := (List.range d.abstract.length).map (m.values.length + d.parameters.length + ·)

/-- The memory with a new context. -/
def madeMem (m : Mem K V) (d : Data K V) : Mem K V :=
  ⟨m.vectors ++ (d.numeric ++ d.continuous :: d.discrete), m.values ++ (d.parameters ++ d.abstract)⟩

theorem made_at (m : Mem K V) (d : Data K V) : At (madeMem m d) (madeLayout m d) d := by
  refine ⟨?_, ?_, ?_, ?_, ?_⟩
  · simp [madeMem, madeLayout]
  · have := map_fresh (m.vectors ++ d.numeric ++ [d.continuous]) d.discrete
    simpa only [List.append_assoc, List.length_append, List.length_singleton, List.singleton_append, madeMem, madeLayout,
      Nat.add_assoc] using this
  · have := map_fresh (m.values ++ d.parameters) d.abstract
    simpa only [List.append_assoc, List.length_append, madeMem, madeLayout] using this
  · have := map_append_left (d.continuous :: d.discrete) (map_fresh m.vectors d.numeric)
    simpa only [List.append_assoc, madeMem, madeLayout] using this
  · have := map_append_left d.abstract (map_fresh m.values d.parameters)
    simpa only [List.append_assoc, madeMem, madeLayout] using this

theorem nodup_fresh (n k : Nat) : ((List.range n).map (k + ·)).Nodup :=
  List.Nodup.map (fun a b h => by simpa using h) List.nodup_range

theorem made_fresh (m : Mem K V) (d : Data K V) : (madeLayout m d).vectors.Nodup ∧ (madeLayout m d).values.Nodup ∧
    (∀ a ∈ (madeLayout m d).vectors, m.vectors.length ≤ a) ∧ ∀ a ∈ (madeLayout m d).values, m.values.length ≤ a := by
  refine ⟨?_, ?_, ?_, ?_⟩
  · refine List.nodup_cons.2 ⟨?_, List.nodup_append.2 ⟨nodup_fresh _ _, nodup_fresh _ _, ?_⟩⟩
    · simp only [madeLayout, List.mem_append, List.mem_map, List.mem_range, not_or, not_exists, not_and]
      constructor <;> intro b hb <;> omega
    · simp only [madeLayout, List.mem_map, List.mem_range]
      rintro a ⟨b, hb, rfl⟩ c ⟨e, he, rfl⟩
      omega
  · refine List.nodup_append.2 ⟨nodup_fresh _ _, nodup_fresh _ _, ?_⟩
    simp only [madeLayout, List.mem_map, List.mem_range]
    rintro a ⟨b, hb, rfl⟩ c ⟨e, he, rfl⟩
    omega
  · simp only [Layout.vectors, madeLayout, List.mem_cons, List.mem_append, List.mem_map, List.mem_range]
    rintro a (rfl | ⟨b, hb, rfl⟩ | ⟨b, hb, rfl⟩) <;> omega
  · simp only [Layout.values, madeLayout, List.mem_append, List.mem_map, List.mem_range]
    rintro a (⟨b, hb, rfl⟩ | ⟨b, hb, rfl⟩) <;> omega

theorem allocate_ok {armed : Bool} {m : Mem K V} {l : Layout} {d : Data K V} (hl : At m l d) {nq nv nz : Int}
    (hs : (d.continuous.length : Int) = nq + nv + nz) (id : Nat) :
    allocateContext armed m id (l.system nq nv nz) =
      if 0 ≤ nv ∧ nv ≤ nq ∧ 0 ≤ nz then .ok (madeMem m d, (madeLayout m d).context id nq.toNat nv.toNat nz.toNat) else .error .throws := by
  have ld : l.discrete.length = d.discrete.length := by simpa using congrArg List.length hl.discrete
  have la : l.abstract.length = d.abstract.length := by simpa using congrArg List.length hl.abstract
  have ln : l.numeric.length = d.numeric.length := by simpa using congrArg List.length hl.numeric
  have lp : l.parameters.length = d.parameters.length := by simpa using congrArg List.length hl.parameters
  have e1 : allocateNumeric armed m.vectors (l.system nq nv nz).numeric (List.range (l.system nq nv nz).numeric.length) =
      .ok (m.vectors ++ d.numeric, (madeLayout m d).numeric) := by
    have := allocateNumeric_ok (armed := armed) (ms := l.numeric.map some) _ d.numeric m.vectors (forall_range hl.numeric)
    simp only [Layout.system, List.length_map]
    rw [this, List.length_range, ln]
    rfl
  have e2 : cloneModels m.values (l.system nq nv nz).parameters (List.range (l.system nq nv nz).parameters.length) =
      .ok (m.values ++ d.parameters, (madeLayout m d).parameters.map some) := by
    have := cloneAll_ok hl.parameters
    simp only [Layout.system, this, madeLayout, lp]
  have e3 : allocateAbstract (m.values ++ d.parameters) (l.system nq nv nz) =
      .ok (m.values ++ d.parameters ++ d.abstract, (madeLayout m d).abstract.map some) := by
    have := cloneAll_ok (map_append_left d.parameters hl.abstract)
    simp only [allocateAbstract, Layout.system, this, madeLayout, la, List.length_append]
  have e4 : valuesAt (m.vectors ++ d.numeric) (l.system nq nv nz).continuous = d.continuous :=
    valuesAt_some (by rw [← hl.continuous]; exact List.getElem?_append_left (List.getElem?_eq_some_iff.1 hl.continuous).1)
  have e5 : allocateContinuous (m.vectors ++ d.numeric) (l.system nq nv nz) =
      if 0 ≤ nv ∧ nv ≤ nq ∧ 0 ≤ nz then .ok (m.vectors ++ d.numeric ++ [d.continuous],
        ((madeLayout m d).context id nq.toNat nv.toNat nz.toNat).state.continuous) else .error .throws := by
    have hlive : StateVec.Spec.Live (m.vectors ++ d.numeric ++ [d.continuous]) (.basic (m.vectors ++ d.numeric).length) := by
      simp [StateVec.Spec.Live]
    have hsz : (Vec.basic (m.vectors ++ d.numeric).length).size (m.vectors ++ d.numeric ++ [d.continuous]) = nq + nv + nz := by
      rw [Vec.size, valuesAt_some (xs := d.continuous) (by simp), hs]
    unfold allocateContinuous
    rw [e4]
    have hs' : (d.continuous.length : Int) = (l.system nq nv nz).nq + (l.system nq nv nz).nv + (l.system nq nv nz).nz := hs
    dsimp only
    rw [if_pos hs']
    dsimp only [Layout.system]
    by_cases hc : 0 ≤ nv ∧ nv ≤ nq ∧ 0 ≤ nz
    · rw [if_pos hc, (make_iff hlive nq nv nz _).2 ⟨⟨hc.1, hc.2.1, hc.2.2, hsz⟩, rfl⟩]
      have q1 : (nq.toNat : Int) = nq := by omega
      have q2 : (nv.toNat : Int) = nv := by omega
      have q3 : (nz.toNat : Int) = nz := by omega
      simp only [bind, Except.bind, pure, Except.pure, Layout.context, madeLayout, q1, q2, q3, List.length_append]
    · rw [if_neg hc]
      have hbad : ∀ c, CState.make (m.vectors ++ d.numeric ++ [d.continuous]) (.basic (m.vectors ++ d.numeric).length) nq nv nz ≠ .ok c :=
        fun c e => hc ⟨((make_iff hlive nq nv nz c).1 e).1.1, ((make_iff hlive nq nv nz c).1 e).1.2.1,
          ((make_iff hlive nq nv nz c).1 e).1.2.2.1⟩
      have herr : CState.make (m.vectors ++ d.numeric ++ [d.continuous]) (.basic (m.vectors ++ d.numeric).length) nq nv nz =
          .error .throws := by
        revert hbad
        unfold CState.make
        rw [if_neg (not_not.2 hsz)]
        split
        · intro _; rfl
        · unfold Vec.mkSub
          dsimp only
          split
          · intro _; rfl
          · split
            · intro _; rfl
            · split
              · intro _; rfl
              · intro hb
                exact absurd rfl (hb _)
      rw [herr]
      rfl
  simp only [allocateContext, allocateParameters, e1, e2, e5, bind, Except.bind, pure, Except.pure]
  by_cases hc : 0 ≤ nv ∧ nv ≤ nq ∧ 0 ≤ nz
  · have e6 := map_valuesAt _ _ (map_append_left [d.continuous] (map_append_left d.numeric hl.discrete))
    simp only [hc, and_self, if_true, e3]
    simp only [Discrete.clone, Layout.system, e6, ld]
    simp only [madeMem, Layout.context, madeLayout, List.append_assoc,
      List.length_append, List.length_singleton, List.singleton_append, Nat.add_assoc]
  · simp only [if_neg hc]

theorem withDefaults_self (armed : Bool) (d : Data K V) : d.withDefaults armed d = (d, none) := by
  simp [Data.withDefaults, Data.withState, Data.withParameters]

theorem setDefaultContext_ok [Zero K] [One K] {S : CType → Prop} {armed : Bool} {hash : CType → BitVec 64} {m : Mem K V} {l k : Layout}
    {d x : Data K V} (hl : At m l d) (hk : At m k x) (hn : k.vectors.Nodup) (hn' : k.values.Nodup)
    (hd : ∀ a ∈ l.vectors, a ∉ k.vectors) (hd' : ∀ a ∈ l.values, a ∉ k.values) (hf : Fits d x) (hS : AllIn S d) (hS' : AllIn S x)
    (nq nv nz : Int) (id a b c : Nat) :
    ∃ m', setDefaultContext armed hash m id (l.system nq nv nz) (k.context id a b c) = (m', (x.withDefaults armed d).2) ∧
      At m' k (x.withDefaults armed d).1 ∧ Kept m m' k := by
  obtain ⟨m1, h1, h2, h3⟩ := setDefaultState_ok (armed := armed) (hash := hash) hl hk hn hn' hd hf nq nv nz id id a b c
  have hg := withState_good (S := S) armed hf hS hS'
  have hl1 : At m1 l d := at_kept hl h3 hd hd'
  obtain ⟨m2, g1, g2, g3⟩ := setDefaultParameters_ok (armed := armed) (hash := hash) hl1 h2 hn hn' hd hd' hg.2.1 nq nv nz id id a b c
  have hid : (k.context id a b c).system = id := rfl
  unfold setDefaultContext Data.withDefaults
  rw [if_neg (by simp [hid]), hid, h1]
  generalize x.withState armed d = r at h1 h2 hg g2
  obtain ⟨y, e⟩ := r
  cases e with
  | none => exact ⟨m2, g1, g2, h3.trans g3⟩
  | some e => exact ⟨m1, rfl, h2, h3⟩

theorem create_ok [Zero K] [One K] {armed : Bool} {hash : CType → BitVec 64} {m : Mem K V} {l : Layout} {d : Data K V} (hl : At m l d)
    {nq nv nz : Int} (hs : (d.continuous.length : Int) = nq + nv + nz) (id : Nat) :
    if 0 ≤ nv ∧ nv ≤ nq ∧ 0 ≤ nz then
      ∃ m', createDefaultContext armed hash m id (l.system nq nv nz) =
        .ok (m', (madeLayout m d).context id nq.toNat nv.toNat nz.toNat) ∧ At m' (madeLayout m d) d ∧ Kept m m' (madeLayout m d)
    else createDefaultContext armed hash m id (l.system nq nv nz) = .error .throws := by
  have ha := allocate_ok (armed := armed) hl hs id
  by_cases hc : 0 ≤ nv ∧ nv ≤ nq ∧ 0 ≤ nz
  · rw [if_pos hc] at ha ⊢
    obtain ⟨f1, f2, f3, f4⟩ := made_fresh m d
    have hl' : At (madeMem m d) l d := at_append hl _ _
    obtain ⟨m', h1, h2, h3⟩ := setDefaultContext_ok (S := fun _ => True) (armed := armed) (hash := hash) hl' (made_at m d) f1 f2
      (fun a h h' => by
        have := mem_vectors_lt hl h
        have := f3 a h'
        omega)
      (fun a h h' => by
        have := mem_values_lt hl h
        have := f4 a h'
        omega)
      (fits_refl d) (by simp [AllIn]) (by simp [AllIn]) nq nv nz id nq.toNat nv.toNat nz.toNat
    rw [withDefaults_self] at h1 h2
    refine ⟨m', ?_, h2, ?_⟩
    · simp only [createDefaultContext, ha, bind, Except.bind, h1, pure, Except.pure]
    · refine Kept.trans ?_ h3
      exact ⟨by simp [madeMem], by simp [madeMem], fun a h _ => List.getElem?_append_left h, fun a h _ => List.getElem?_append_left h⟩
  · rw [if_neg hc] at ha ⊢
    simp only [createDefaultContext, ha, bind, Except.bind]

theorem made_agrees (h : Inv w ps ov ox) {d : Data K V} {m' : Mem K V} (i nq nv nz : Nat) (hat : At m' (madeLayout w.mem d) d)
    (hk : Kept w.mem m' (madeLayout w.mem d)) :
    Agrees (w.made (.ok (m', (madeLayout w.mem d).context i nq nv nz))) (added ps (.context i nq nv nz d)) := by
  obtain ⟨f1, f2, f3, f4⟩ := made_fresh w.mem d
  refine ⟨by simp [World.made, added, h.length], ?_⟩
  refine inv_add h ⟨hk.vectors, hk.values, fun a ha _ => hk.vectorsKept a ha fun hm => ?_, fun a ha _ => hk.valuesKept a ha fun hm => ?_⟩
    ⟨madeLayout w.mem d, rfl, hat, owns_grow f1 f2 (fun a ha => .inr ⟨f3 a ha, mem_vectors_lt hat ha⟩)
      fun a ha => .inr ⟨f4 a ha, mem_values_lt hat ha⟩⟩
  · have := f3 a hm
    omega
  · have := f4 a hm
    omega

theorem owns_disjoint {i j : Nat} {l k : Layout} (h : Owns ov ox i l) (h' : Owns ov ox j k) (hij : i ≠ j) :
    (∀ a ∈ l.vectors, a ∉ k.vectors) ∧ ∀ a ∈ l.values, a ∉ k.values := by
  constructor
  · intro a ha hb
    have := h.vectorsOf a ha
    rw [h'.vectorsOf a hb] at this
    injection this with this
    exact hij this.symm
  · intro a ha hb
    have := h.valuesOf a ha
    rw [h'.valuesOf a hb] at this
    injection this with this
    exact hij this.symm

theorem exec_agrees [Zero K] [One K] {S : CType → Prop} {armed : Bool} {hash : CType → BitVec 64} (ht : Told armed hash S)
    (h : Inv w ps ov ox) (hw : WF S ps) {op : Op K V} (hop : TypesIn S op) : Agrees (w.exec armed hash op) (meant armed ps op) := by
  have hnew : ∀ (hs : List (List K)) (vs : List (Value V)) (o : Obj) (p : Plain K V),
      Is ⟨w.mem.vectors ++ hs, w.mem.values ++ vs⟩
        (grow w.mem.vectors.length (w.mem.vectors ++ hs).length w.objs.length ov)
        (grow w.mem.values.length (w.mem.values ++ vs).length w.objs.length ox) w.objs.length o p →
      Agrees (⟨⟨w.mem.vectors ++ hs, w.mem.values ++ vs⟩, w.objs ++ [o]⟩, .ok w.objs.length) (added ps p) := by
    intro hs vs o p hI
    exact ⟨by simp [added, h.length], inv_add h (step_append hs vs _) hI⟩
  cases op with
  | newVector xs =>
    have := hnew [xs] [] (.vector w.mem.vectors.length) (.vector xs) ⟨by simp, grow_new (le_refl _) (by simp)⟩
    simp only [List.append_nil] at this
    exact this
  | newValue v =>
    have := hnew [] [v] (.value w.mem.values.length) (.value v) ⟨by simp, grow_new (le_refl _) (by simp)⟩
    simp only [List.append_nil] at this
    exact this
  | newSystem =>
    have := hnew [[]] [] (.system (makeSystem w.mem).2) (.system 0 0 0 ⟨[], [], [], [], []⟩)
      ⟨⟨w.mem.vectors.length, [], [], [], []⟩, rfl, ⟨by simp, rfl, rfl, rfl, rfl⟩, ⟨by simp [Layout.vectors], by simp [Layout.values],
        fun a ha => by
          simp only [Layout.vectors, List.append_nil, List.mem_singleton] at ha
          subst ha
          exact grow_new (le_refl _) (by simp),
        fun a ha => by simp [Layout.values] at ha⟩⟩
    simp only [List.append_nil] at this
    exact this
  | setVector i xs =>
    rcases on_vector h i with ⟨a, old, e1, e2, e3, e4⟩ | ⟨n1, n2⟩
    · simp only [World.exec, meant, e1, e2, writeVector_ok e3]
      refine wrote_agrees _ (inv_write h (m' := ⟨w.mem.vectors.set a (replacedVector old xs).1, w.mem.values⟩) (p' := .vector _)
        ⟨by simp, le_refl _, fun b _ hb => ?_, fun _ _ _ => rfl⟩ e1 ⟨?_, ?_⟩)
      · exact List.getElem?_set_ne fun e => hb (by rw [← e]; exact e4)
      · exact List.getElem?_set_self (List.getElem?_eq_some_iff.1 e3).1
      · rw [grow_old (List.getElem?_eq_some_iff.1 e3).1, e4]
    · refine agrees_skip h ?_ ?_
      · simp only [World.exec]
      · simp only [meant]
  | setValue i t x =>
    rcases on_value h i with ⟨a, old, e1, e2, e3, e4⟩ | ⟨n1, n2⟩
    · simp only [World.exec, meant, e1, e2, writeValue_ok ht e3 hop (hw i _ e2)]
      refine wrote_agrees _ (inv_write h (m' := ⟨w.mem.vectors, w.mem.values.set a (replacedValue old t x).1⟩) (p' := .value _)
        ⟨le_refl _, by simp, fun _ _ _ => rfl, fun b _ hb => ?_⟩ e1 ⟨?_, ?_⟩)
      · exact List.getElem?_set_ne fun e => hb (by rw [← e]; exact e4)
      · exact List.getElem?_set_self (List.getElem?_eq_some_iff.1 e3).1
      · rw [grow_old (List.getElem?_eq_some_iff.1 e3).1, e4]
    · refine agrees_skip h ?_ ?_
      · simp only [World.exec]
      · simp only [meant]
  | declareContinuous i j nq nv nz =>
    rcases on_system h i with ⟨l, a, b, c, d, e1, e2, e3, e4⟩ | ⟨n1, n2⟩
    · rcases on_vector h j with ⟨v, xs, f1, f2, f3, f4⟩ | ⟨n1, n2⟩
      · simp only [World.exec, meant, e1, e2, f1, f2, LeafDefaults.declareContinuous, valuesAt_some f3]
        by_cases hs : (xs.length : Int) = nq + nv + nz
        · simp only [if_pos hs]
          have := refines_continuous h e3 e4 [] xs nq nv nz
          exact ⟨rfl, by simpa only [World.declared, declared, List.length_nil, Nat.add_zero, List.nil_append, Layout.system] using this⟩
        · simp only [if_neg hs]
          exact agrees_same h _
      · refine agrees_skip h ?_ ?_
        · simp only [World.exec]
          split <;> first | (exfalso; apply n1; assumption) | rfl
        · simp only [meant]
          split <;> first | (exfalso; apply n2; assumption) | rfl
    · refine agrees_skip h ?_ ?_
      · simp only [World.exec]
        split <;> first | (exfalso; apply n1; assumption) | rfl
      · simp only [meant]
        split <;> first | (exfalso; apply n2; assumption) | rfl
  | declareMisc i j =>
    rcases on_system h i with ⟨l, a, b, c, d, e1, e2, e3, e4⟩ | ⟨n1, n2⟩
    · rcases on_vector h j with ⟨v, xs, f1, f2, f3, f4⟩ | ⟨n1, n2⟩
      · simp only [World.exec, meant, e1, e2, f1, f2, LeafDefaults.declareMisc, LeafDefaults.declareContinuous, valuesAt_some f3]
        rw [if_pos (by omega)]
        have := refines_continuous h e3 e4 [] xs 0 0 xs.length
        exact ⟨rfl, by simpa only [World.declared, declared, List.length_nil, Nat.add_zero, List.nil_append, Layout.system] using this⟩
      · refine agrees_skip h ?_ ?_
        · simp only [World.exec]
          split <;> first | (exfalso; apply n1; assumption) | rfl
        · simp only [meant]
          split <;> first | (exfalso; apply n2; assumption) | rfl
    · refine agrees_skip h ?_ ?_
      · simp only [World.exec]
        split <;> first | (exfalso; apply n1; assumption) | rfl
      · simp only [meant]
        split <;> first | (exfalso; apply n2; assumption) | rfl
  | declareContinuousSizes i nq nv nz =>
    rcases on_system h i with ⟨l, a, b, c, d, e1, e2, e3, e4⟩ | ⟨n1, n2⟩
    · simp only [World.exec, meant, e1, e2, LeafDefaults.declareContinuousSizes, zeros]
      by_cases hs : 0 ≤ nq + nv + nz
      · have hv : valuesAt (w.mem.vectors ++ [List.replicate (nq + nv + nz).toNat (0 : K)]) w.mem.vectors.length =
            List.replicate (nq + nv + nz).toNat 0 := valuesAt_some (by simp)
        simp only [if_pos hs, bind, Except.bind, LeafDefaults.declareContinuous, hv]
        rw [if_pos (by simp; omega)]
        have := refines_continuous h e3 e4 [List.replicate (nq + nv + nz).toNat 0] (List.replicate (nq + nv + nz).toNat 0) nq nv nz
        refine ⟨rfl, ?_⟩
        simpa only [World.declared, declared, Layout.system, List.length_append, List.append_assoc, List.length_singleton] using this
      · simp only [if_neg hs, bind, Except.bind]
        exact agrees_same h _
    · refine agrees_skip h ?_ ?_
      · simp only [World.exec]
      · simp only [meant]
  | declareDiscrete i j =>
    rcases on_system h i with ⟨l, a, b, c, d, e1, e2, e3, e4⟩ | ⟨n1, n2⟩
    · rcases on_vector h j with ⟨v, xs, f1, f2, f3, f4⟩ | ⟨n1, n2⟩
      · have ld : l.discrete.length = d.discrete.length := by simpa using congrArg List.length e3.discrete
        simp only [World.exec, meant, e1, e2, f1, f2, LeafDefaults.declareDiscrete, valuesAt_some f3, Discrete.appendGroup, bind,
          Except.bind, pure, Except.pure]
        have := refines_discrete h e3 e4 [] xs a b c
        refine ⟨by simp [World.declared, declared, Layout.system, ld], ?_⟩
        simpa only [World.declared, declared, List.length_nil, Nat.add_zero, List.nil_append, Layout.system] using this
      · refine agrees_skip h ?_ ?_
        · simp only [World.exec]
          split <;> first | (exfalso; apply n1; assumption) | rfl
        · simp only [meant]
          split <;> first | (exfalso; apply n2; assumption) | rfl
    · refine agrees_skip h ?_ ?_
      · simp only [World.exec]
        split <;> first | (exfalso; apply n1; assumption) | rfl
      · simp only [meant]
        split <;> first | (exfalso; apply n2; assumption) | rfl
  | declareDiscreteSize i n =>
    rcases on_system h i with ⟨l, a, b, c, d, e1, e2, e3, e4⟩ | ⟨n1, n2⟩
    · simp only [World.exec, meant, e1, e2, LeafDefaults.declareDiscreteSize]
      by_cases hs : 0 ≤ n
      · have hv : valuesAt (w.mem.vectors ++ [List.replicate n.toNat (0 : K)]) w.mem.vectors.length =
            List.replicate n.toNat 0 := valuesAt_some (by simp)
        have ld : l.discrete.length = d.discrete.length := by simpa using congrArg List.length e3.discrete
        simp only [if_pos hs, LeafDefaults.declareDiscrete, hv, Discrete.appendGroup, bind, Except.bind, pure, Except.pure]
        have := refines_discrete h e3 e4 [List.replicate n.toNat 0] (List.replicate n.toNat 0) a b c
        refine ⟨by simp [World.declared, declared, Layout.system, ld], ?_⟩
        simpa only [World.declared, declared, Layout.system, List.length_append, List.append_assoc, List.length_singleton] using this
      · simp only [if_neg hs]
        exact agrees_same h _
    · refine agrees_skip h ?_ ?_
      · simp only [World.exec]
      · simp only [meant]
  | declareAbstract i j =>
    rcases on_system h i with ⟨l, a, b, c, d, e1, e2, e3, e4⟩ | ⟨n1, n2⟩
    · rcases on_value h j with ⟨v, x, f1, f2, f3, f4⟩ | ⟨n1, n2⟩
      · have la : l.abstract.length = d.abstract.length := by simpa using congrArg List.length e3.abstract
        have hc : TypeErasure.clone x = x := rfl
        simp only [World.exec, meant, e1, e2, f1, f2, LeafDefaults.declareAbstract, f3, add_next, bind, Except.bind, pure, Except.pure, hc]
        have := refines_abstract h e3 e4 x a b c
        refine ⟨by simp [World.declared, declared, Layout.system, la], ?_⟩
        simpa only [World.declared, declared, Layout.system] using this
      · refine agrees_skip h ?_ ?_
        · simp only [World.exec]
          split <;> first | (exfalso; apply n1; assumption) | rfl
        · simp only [meant]
          split <;> first | (exfalso; apply n2; assumption) | rfl
    · refine agrees_skip h ?_ ?_
      · simp only [World.exec]
        split <;> first | (exfalso; apply n1; assumption) | rfl
      · simp only [meant]
        split <;> first | (exfalso; apply n2; assumption) | rfl
  | declareNumeric i j =>
    rcases on_system h i with ⟨l, a, b, c, d, e1, e2, e3, e4⟩ | ⟨n1, n2⟩
    · rcases on_vector h j with ⟨v, xs, f1, f2, f3, f4⟩ | ⟨n1, n2⟩
      · have ln : l.numeric.length = d.numeric.length := by simpa using congrArg List.length e3.numeric
        simp only [World.exec, meant, e1, e2, f1, f2, LeafDefaults.declareNumeric, valuesAt_some f3, add_next, bind,
          Except.bind, pure, Except.pure]
        have := refines_numeric h e3 e4 xs a b c
        refine ⟨by simp [World.declared, declared, Layout.system, ln], ?_⟩
        simpa only [World.declared, declared, Layout.system] using this
      · refine agrees_skip h ?_ ?_
        · simp only [World.exec]
          split <;> first | (exfalso; apply n1; assumption) | rfl
        · simp only [meant]
          split <;> first | (exfalso; apply n2; assumption) | rfl
    · refine agrees_skip h ?_ ?_
      · simp only [World.exec]
        split <;> first | (exfalso; apply n1; assumption) | rfl
      · simp only [meant]
        split <;> first | (exfalso; apply n2; assumption) | rfl
  | declareParameter i j =>
    rcases on_system h i with ⟨l, a, b, c, d, e1, e2, e3, e4⟩ | ⟨n1, n2⟩
    · rcases on_value h j with ⟨v, x, f1, f2, f3, f4⟩ | ⟨n1, n2⟩
      · have lp : l.parameters.length = d.parameters.length := by simpa using congrArg List.length e3.parameters
        have hc : TypeErasure.clone x = x := rfl
        simp only [World.exec, meant, e1, e2, f1, f2, LeafDefaults.declareParameter, f3, add_next, bind, Except.bind, pure, Except.pure, hc]
        have := refines_parameter h e3 e4 x a b c
        refine ⟨by simp [World.declared, declared, Layout.system, lp], ?_⟩
        simpa only [World.declared, declared, Layout.system] using this
      · refine agrees_skip h ?_ ?_
        · simp only [World.exec]
          split <;> first | (exfalso; apply n1; assumption) | rfl
        · simp only [meant]
          split <;> first | (exfalso; apply n2; assumption) | rfl
    · refine agrees_skip h ?_ ?_
      · simp only [World.exec]
        split <;> first | (exfalso; apply n1; assumption) | rfl
      · simp only [meant]
        split <;> first | (exfalso; apply n2; assumption) | rfl
  | allocate i =>
    rcases on_system h i with ⟨l, a, b, c, d, e1, e2, e3, e4⟩ | ⟨n1, n2⟩
    · simp only [World.exec, meant, meant.made, e1, e2, allocate_ok e3 (hw i _ e2).1]
      by_cases hc : 0 ≤ b ∧ b ≤ a ∧ 0 ≤ c
      · rw [if_pos hc, if_pos hc]
        exact made_agrees h i _ _ _ (made_at w.mem d) ⟨by simp [madeMem], by simp [madeMem],
          fun a h _ => List.getElem?_append_left h, fun a h _ => List.getElem?_append_left h⟩
      · rw [if_neg hc, if_neg hc]
        exact agrees_same h _
    · refine agrees_skip h ?_ ?_
      · simp only [World.exec]
      · simp only [meant, meant.made]
  | create i =>
    rcases on_system h i with ⟨l, a, b, c, d, e1, e2, e3, e4⟩ | ⟨n1, n2⟩
    · have hcr := create_ok (armed := armed) (hash := hash) e3 (hw i _ e2).1 i
      simp only [World.exec, meant, meant.made, e1, e2]
      by_cases hc : 0 ≤ b ∧ b ≤ a ∧ 0 ≤ c
      · rw [if_pos hc] at hcr ⊢
        obtain ⟨m', g1, g2, g3⟩ := hcr
        rw [g1]
        exact made_agrees h i _ _ _ g2 g3
      · rw [if_neg hc] at hcr ⊢
        rw [hcr]
        exact agrees_same h _
    · refine agrees_skip h ?_ ?_
      · simp only [World.exec]
      · simp only [meant, meant.made]
  | setDefault i j =>
    rcases on_system h i with ⟨l, a, b, c, d, e1, e2, e3, e4⟩ | ⟨n1, n2⟩
    · rcases on_context h j with ⟨k, s, nq, nv, nz, x, f1, f2, f3, f4⟩ | ⟨n1, n2⟩
      · simp only [World.exec, meant, e1, e2, f1, f2]
        by_cases hs : s = i
        · subst hs
          rw [if_pos rfl]
          have hij : s ≠ j := by
            rintro rfl
            rw [e2] at f2
            cases f2
          obtain ⟨hd1, hd2⟩ := owns_disjoint e4 f4 hij
          obtain ⟨g1, g2, _, _, _, d', g3, g4⟩ := hw j _ f2
          rw [e2] at g3
          injection g3 with g3
          injection g3 with _ _ _ g3
          subst g3
          obtain ⟨m', q1, q2, q3⟩ := setDefaultContext_ok (armed := armed) (hash := hash) e3 f3 f4.vectors f4.values hd1 hd2 g4
            (hw s _ e2).2 g2 a b c s nq nv nz
          rw [q1]
          exact wrote_agrees _ (refines_context h f1 f3 f4 q2 q3)
        · rw [if_neg hs]
          unfold setDefaultContext
          rw [if_pos (by simpa [Layout.context] using hs)]
          exact agrees_same h _
      · refine agrees_skip h ?_ ?_
        · simp only [World.exec]
          split <;> first | (exfalso; apply n1; assumption) | rfl
        · simp only [meant]
          split <;> first | (exfalso; apply n2; assumption) | rfl
    · refine agrees_skip h ?_ ?_
      · simp only [World.exec]
        split <;> first | (exfalso; apply n1; assumption) | rfl
      · simp only [meant]
        split <;> first | (exfalso; apply n2; assumption) | rfl
  | setDefaultState i j' j =>
    rcases on_system h i with ⟨l, a, b, c, d, e1, e2, e3, e4⟩ | ⟨n1, n2⟩
    · rcases on_context h j with ⟨k, s, nq, nv, nz, x, f1, f2, f3, f4⟩ | ⟨n1, n2⟩
      · rcases on_context h j' with ⟨k', s', nq', nv', nz', x', f1', f2', f3', f4'⟩ | ⟨n1, n2⟩
        · simp only [World.exec, meant, e1, e2, f1, f2, f1', f2']
          by_cases hs : s' = i ∧ s = i
          · obtain ⟨hs', hs⟩ := hs
            subst hs'
            subst hs
            rw [if_pos ⟨rfl, rfl⟩]
            have hij : s ≠ j := by
              rintro rfl
              rw [e2] at f2
              cases f2
            obtain ⟨hd1, hd2⟩ := owns_disjoint e4 f4 hij
            obtain ⟨g1, g2, _, _, _, d', g3, g4⟩ := hw j _ f2
            rw [e2] at g3
            injection g3 with g3
            injection g3 with _ _ _ g3
            subst g3
            obtain ⟨m', q1, q2, q3⟩ := setDefaultState_ok (armed := armed) (hash := hash) e3 f3 f4.vectors f4.values hd1 g4
              a b c s s nq nv nz
            have q1' : LeafDefaults.setDefaultState armed hash w.mem s (l.system a b c) (k'.context s nq' nv' nz').system
                (k.context s nq nv nz).system (k.context s nq nv nz).state = (m', (x.withState armed d).2) := q1
            rw [q1']
            exact wrote_agrees _ (refines_context h f1 f3 f4 q2 q3)
          · rw [if_neg hs]
            unfold LeafDefaults.setDefaultState
            have r1 : (k'.context s' nq' nv' nz').system = s' := rfl
            have r2 : (k.context s nq nv nz).system = s := rfl
            rw [r1, r2]
            by_cases hs1 : s' = i
            · rw [if_neg (by simpa using hs1), if_pos fun hs2 => hs ⟨hs1, hs2⟩]
              exact agrees_same h _
            · rw [if_pos hs1]
              exact agrees_same h _
        · refine agrees_skip h ?_ ?_
          · simp only [World.exec]
            split <;> first | (exfalso; apply n1; assumption) | rfl
          · simp only [meant]
            split <;> first | (exfalso; apply n2; assumption) | rfl
      · refine agrees_skip h ?_ ?_
        · simp only [World.exec]
          split <;> first | (exfalso; apply n1; assumption) | rfl
        · simp only [meant]
          split <;> first | (exfalso; apply n2; assumption) | rfl
    · refine agrees_skip h ?_ ?_
      · simp only [World.exec]
        split <;> first | (exfalso; apply n1; assumption) | rfl
      · simp only [meant]
        split <;> first | (exfalso; apply n2; assumption) | rfl
  | setDefaultParameters i j' j =>
    rcases on_system h i with ⟨l, a, b, c, d, e1, e2, e3, e4⟩ | ⟨n1, n2⟩
    · rcases on_context h j with ⟨k, s, nq, nv, nz, x, f1, f2, f3, f4⟩ | ⟨n1, n2⟩
      · rcases on_context h j' with ⟨k', s', nq', nv', nz', x', f1', f2', f3', f4'⟩ | ⟨n1, n2⟩
        · simp only [World.exec, meant, e1, e2, f1, f2, f1', f2']
          by_cases hs : s' = i ∧ s = i
          · obtain ⟨hs', hs⟩ := hs
            subst hs'
            subst hs
            rw [if_pos ⟨rfl, rfl⟩]
            have hij : s ≠ j := by
              rintro rfl
              rw [e2] at f2
              cases f2
            obtain ⟨hd1, hd2⟩ := owns_disjoint e4 f4 hij
            obtain ⟨g1, g2, _, _, _, d', g3, g4⟩ := hw j _ f2
            rw [e2] at g3
            injection g3 with g3
            injection g3 with _ _ _ g3
            subst g3
            obtain ⟨m', q1, q2, q3⟩ := setDefaultParameters_ok (armed := armed) (hash := hash) e3 f3 f4.vectors f4.values hd1 hd2 g4
              a b c s s nq nv nz
            have q1' : LeafDefaults.setDefaultParameters armed hash w.mem s (l.system a b c) (k'.context s nq' nv' nz').system
                (k.context s nq nv nz).system (k.context s nq nv nz).parameters = (m', none) := q1
            rw [q1']
            exact wrote_agrees _ (refines_context h f1 f3 f4 q2 q3)
          · rw [if_neg hs]
            unfold LeafDefaults.setDefaultParameters
            have r1 : (k'.context s' nq' nv' nz').system = s' := rfl
            have r2 : (k.context s nq nv nz).system = s := rfl
            rw [r1, r2]
            by_cases hs1 : s' = i
            · rw [if_neg (by simpa using hs1), if_pos fun hs2 => hs ⟨hs1, hs2⟩]
              exact agrees_same h _
            · rw [if_pos hs1]
              exact agrees_same h _
        · refine agrees_skip h ?_ ?_
          · simp only [World.exec]
            split <;> first | (exfalso; apply n1; assumption) | rfl
          · simp only [meant]
            split <;> first | (exfalso; apply n2; assumption) | rfl
      · refine agrees_skip h ?_ ?_
        · simp only [World.exec]
          split <;> first | (exfalso; apply n1; assumption) | rfl
        · simp only [meant]
          split <;> first | (exfalso; apply n2; assumption) | rfl
    · refine agrees_skip h ?_ ?_
      · simp only [World.exec]
        split <;> first | (exfalso; apply n1; assumption) | rfl
      · simp only [meant]
        split <;> first | (exfalso; apply n2; assumption) | rfl
  | setContinuous i xs =>
    rcases on_context h i with ⟨k, s, nq, nv, nz, x, f1, f2, f3, f4⟩ | ⟨n1, n2⟩
    · simp only [World.exec, meant, f1, f2, setContinuousFrom_ok f3.continuous]
      have hn1 := (List.nodup_cons.1 f4.vectors).1
      have hc := (List.getElem?_eq_some_iff.1 f3.continuous).1
      by_cases hl : xs.length = x.continuous.length
      · rw [if_pos hl, if_pos hl]
        refine wrote_agrees none (refines_context h f1 f3 f4 ⟨?_, ?_, f3.abstract, ?_, f3.parameters⟩
          ⟨by simp, le_refl _, fun a _ ha => ?_, fun _ _ _ => rfl⟩)
        · exact List.getElem?_set_self hc
        · rw [← f3.discrete]
          exact map_set_notMem _ fun hm => hn1 (List.mem_append_left _ hm)
        · rw [← f3.numeric]
          exact map_set_notMem _ fun hm => hn1 (List.mem_append_right _ hm)
        · exact List.getElem?_set_ne fun e => ha (by rw [← e]; exact List.mem_cons_self)
      · rw [if_neg hl, if_neg hl]
        exact agrees_same h _
    · refine agrees_skip h ?_ ?_
      · simp only [World.exec]
      · simp only [meant]
  | setDiscrete i g xs =>
    rcases on_context h i with ⟨k, s, nq, nv, nz, x, f1, f2, f3, f4⟩ | ⟨n1, n2⟩
    · have hn := List.nodup_cons.1 f4.vectors
      have hn' := List.nodup_append.1 hn.2
      obtain ⟨h', g1, g2, g3, g4⟩ := writeGroup_ok f3.discrete hn'.1 g xs
      have g1' : writeGroup w.mem (k.context s nq nv nz).state.discrete g xs =
        (⟨h', w.mem.values⟩, (replacedGroup x.discrete g xs).2) := g1
      simp only [World.exec, meant, f1, f2, g1']
      refine wrote_agrees _ (refines_context h f1 f3 f4 ⟨?_, g2, f3.abstract, ?_, f3.parameters⟩
        ⟨by simp [g3], le_refl _, fun a _ ha => ?_, fun _ _ _ => rfl⟩)
      · exact (g4 _ fun hm => hn.1 (List.mem_append_left _ hm)).trans f3.continuous
      · rw [← f3.numeric]
        exact List.map_congr_left fun a ha => g4 a fun hb => hn'.2.2 a hb a ha rfl
      · exact g4 a fun hm => ha (by simp [Layout.vectors, hm])
    · refine agrees_skip h ?_ ?_
      · simp only [World.exec]
      · simp only [meant]
  | setAbstract i j t v =>
    rcases on_context h i with ⟨k, s, nq, nv, nz, x, f1, f2, f3, f4⟩ | ⟨n1, n2⟩
    · have hn' := List.nodup_append.1 f4.values
      obtain ⟨h', g1, g2, g3, g4⟩ := writeAbstract_ok ht f3.abstract hn'.1 (hw i _ f2).2.1.1 j hop v
      have g1' : writeAbstract armed hash w.mem (k.context s nq nv nz).state.abstract j t v =
        (⟨w.mem.vectors, h'⟩, (replacedAbstract armed x.abstract j t v).2) := g1
      simp only [World.exec, meant, f1, f2, g1']
      refine wrote_agrees _ (refines_context h f1 f3 f4 ⟨f3.continuous, f3.discrete, g2, f3.numeric, ?_⟩
        ⟨le_refl _, by simp [g3], fun _ _ _ => rfl, fun a _ ha => ?_⟩)
      · rw [← f3.parameters]
        exact List.map_congr_left fun a ha => g4 a fun hb => hn'.2.2 a hb a ha rfl
      · exact g4 a fun hm => ha (by simp [Layout.values, hm])
    · refine agrees_skip h ?_ ?_
      · simp only [World.exec]
      · simp only [meant]
  | setNumeric i g xs =>
    rcases on_context h i with ⟨k, s, nq, nv, nz, x, f1, f2, f3, f4⟩ | ⟨n1, n2⟩
    · have hn := List.nodup_cons.1 f4.vectors
      have hn' := List.nodup_append.1 hn.2
      obtain ⟨h', g1, g2, g3, g4⟩ := writeGroup_ok f3.numeric hn'.2.1 g xs
      have g1' : writeGroup w.mem (k.context s nq nv nz).parameters.numeric g xs =
        (⟨h', w.mem.values⟩, (replacedGroup x.numeric g xs).2) := g1
      simp only [World.exec, meant, f1, f2, g1']
      refine wrote_agrees _ (refines_context h f1 f3 f4 ⟨?_, ?_, f3.abstract, g2, f3.parameters⟩
        ⟨by simp [g3], le_refl _, fun a _ ha => ?_, fun _ _ _ => rfl⟩)
      · exact (g4 _ fun hm => hn.1 (List.mem_append_right _ hm)).trans f3.continuous
      · rw [← f3.discrete]
        exact List.map_congr_left fun a ha => g4 a fun hb => hn'.2.2 a ha a hb rfl
      · exact g4 a fun hm => ha (by simp [Layout.vectors, hm])
    · refine agrees_skip h ?_ ?_
      · simp only [World.exec]
      · simp only [meant]
  | setParameter i j t v =>
    rcases on_context h i with ⟨k, s, nq, nv, nz, x, f1, f2, f3, f4⟩ | ⟨n1, n2⟩
    · have hn' := List.nodup_append.1 f4.values
      obtain ⟨h', g1, g2, g3, g4⟩ := writeAbstract_ok ht f3.parameters hn'.2.1 (hw i _ f2).2.1.2 j hop v
      have g1' : writeAbstract armed hash w.mem (k.context s nq nv nz).parameters.abstract j t v =
        (⟨w.mem.vectors, h'⟩, (replacedAbstract armed x.parameters j t v).2) := g1
      simp only [World.exec, meant, f1, f2, g1']
      refine wrote_agrees _ (refines_context h f1 f3 f4 ⟨f3.continuous, f3.discrete, ?_, f3.numeric, g2⟩
        ⟨le_refl _, by simp [g3], fun _ _ _ => rfl, fun a _ ha => ?_⟩)
      · rw [← f3.abstract]
        exact List.map_congr_left fun a ha => g4 a fun hb => hn'.2.2 a ha a hb rfl
      · exact g4 a fun hm => ha (by simp [Layout.values, hm])
    · refine agrees_skip h ?_ ?_
      · simp only [World.exec]
      · simp only [meant]

end

theorem run_agrees [Zero K] [One K] {S : CType → Prop} {armed : Bool} {hash : CType → BitVec 64} (ht : Told armed hash S)
    {w : World K V} {ps : List (Plain K V)} (hr : Refines w ps) (hw : WF S ps) (ops : List (Op K V)) (ho : ∀ o ∈ ops, TypesIn S o) :
    (w.run armed hash ops).2 = (meantRun armed ps ops).2 ∧ Refines (w.run armed hash ops).1 (meantRun armed ps ops).1 ∧
      WF S (meantRun armed ps ops).1 := by
  induction ops generalizing w ps with
  | nil => exact ⟨rfl, hr, hw⟩
  | cons o os ih =>
    obtain ⟨ov, ox, hi⟩ := hr
    obtain ⟨h1, h2⟩ := exec_agrees ht hi hw (ho o (by simp))
    have h3 := meant_wf (armed := armed) hw (ho o (by simp))
    have h4 := ih h2 h3 fun o' h => ho o' (by simp [h])
    simp only [World.run, meantRun]
    rw [h1]
    cases hm : (meant armed ps o).2 with
    | ok r => exact ⟨by rw [h4.1], h4.2⟩
    | error e =>
      cases e with
      | aborts => exact ⟨rfl, h2, h3⟩
      | ub => exact ⟨rfl, h2, h3⟩
      | throws => exact ⟨by rw [h4.1], h4.2⟩
      | outOfRange => exact ⟨by rw [h4.1], h4.2⟩

end Maliput.LeafDefaults
