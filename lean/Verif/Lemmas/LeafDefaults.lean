import Verif.Spec.LeafDefaults
import Verif.Lemmas.SystemStateHistory

set_option autoImplicit false

open Maliput.SysState (Mem Discrete Abstract State Parameters copyLoop copyGroup valuesAt_some map_getElem map_append_left map_fresh mem_lt map_set_notMem map_set_getElem
  copyLoop_copied abstract_setFrom_eq told_setFrom told_cast Told getValue_some map_valuesAt copyGroup_eq)

namespace Maliput.LeafDefaults
open Maliput StateVec TypeErasure LeafDefaults.Spec

variable {K V : Type}

/-! ### Owners -/

/-- Everything that is new belongs to `i`. -/
def grow (n n' i : Nat) (o : Nat → Option Nat) (a : Nat) : Option Nat := if n ≤ a ∧ a < n' then some i else o a

theorem grow_old {n n' i a : Nat} {o : Nat → Option Nat} (h : a < n) : grow n n' i o a = o a := by
  rw [grow, if_neg (by omega)]

theorem grow_new {n n' i a : Nat} {o : Nat → Option Nat} (h : n ≤ a) (h' : a < n') : grow n n' i o a = some i := by
  rw [grow, if_pos ⟨h, h'⟩]

theorem is_frame {m m' : Mem K V} {ov ox ov' ox' : Nat → Option Nat} {j : Nat} {o : Obj} {p : Plain K V} (h : Is m ov ox j o p)
    (hv : ∀ a, ov a = some j → ov' a = some j ∧ m'.vectors[a]? = m.vectors[a]?)
    (hx : ∀ a, ox a = some j → ox' a = some j ∧ m'.values[a]? = m.values[a]?) : Is m' ov' ox' j o p := by
  have hat : ∀ {l : Layout} {d : Data K V}, At m l d → Owns ov ox j l → At m' l d ∧ Owns ov' ox' j l := by
    intro l d ha ho
    have hd : ∀ {as : List Nat}, (∀ a ∈ as, a ∈ l.vectors) → as.map (m'.vectors[·]?) = as.map (m.vectors[·]?) := fun hs =>
      List.map_congr_left fun a ha => (hv a (ho.vectorsOf a (hs a ha))).2
    have hy : ∀ {as : List Nat}, (∀ a ∈ as, a ∈ l.values) → as.map (m'.values[·]?) = as.map (m.values[·]?) := fun hs =>
      List.map_congr_left fun a ha => (hx a (ho.valuesOf a (hs a ha))).2
    refine ⟨⟨?_, ?_, ?_, ?_, ?_⟩, ⟨ho.vectors, ho.values, fun a h => (hv a (ho.vectorsOf a h)).1,
      fun a h => (hx a (ho.valuesOf a h)).1⟩⟩
    · rw [(hv _ (ho.vectorsOf _ (by simp [Layout.vectors]))).2]
      exact ha.continuous
    · rw [hd fun a h => by simp [Layout.vectors, h]]
      exact ha.discrete
    · rw [hy fun a h => by simp [Layout.values, h]]
      exact ha.abstract
    · rw [hd fun a h => by simp [Layout.vectors, h]]
      exact ha.numeric
    · rw [hy fun a h => by simp [Layout.values, h]]
      exact ha.parameters
  cases o <;> cases p <;> simp only [Is] at h ⊢
  · exact ⟨by rw [(hv _ h.2).2]; exact h.1, (hv _ h.2).1⟩
  · exact ⟨by rw [(hx _ h.2).2]; exact h.1, (hx _ h.2).1⟩
  · obtain ⟨l, e, ha, ho⟩ := h
    exact ⟨l, e, (hat ha ho).1, (hat ha ho).2⟩
  · obtain ⟨l, e, ha, ho⟩ := h
    exact ⟨l, e, (hat ha ho).1, (hat ha ho).2⟩

section
variable {w : World K V} {ps : List (Plain K V)} {ov ox : Nat → Option Nat}

/-- What an operation on the object `i` may do to the memory. -/
structure Step (m m' : Mem K V) (ov ox : Nat → Option Nat) (i : Nat) : Prop where
  vectors : m.vectors.length ≤ m'.vectors.length
  values : m.values.length ≤ m'.values.length
  vectorsKept : ∀ a < m.vectors.length, ov a ≠ some i → m'.vectors[a]? = m.vectors[a]?
  valuesKept : ∀ a < m.values.length, ox a ≠ some i → m'.values[a]? = m.values[a]?

theorem others (h : Inv w ps ov ox) {i : Nat} {m' : Mem K V} (hs : Step w.mem m' ov ox i) {j : Nat} (hj : j ≠ i) {o : Obj} {p : Plain K V}
    (ho : w.objs[j]? = some o) (hp : ps[j]? = some p) :
    Is m' (grow w.mem.vectors.length m'.vectors.length i ov) (grow w.mem.values.length m'.values.length i ox) j o p := by
  refine is_frame (h.objs j o p ho hp) (fun a ha => ?_) fun a ha => ?_
  · have hl := h.vectors a j ha
    exact ⟨by rw [grow_old hl, ha], hs.vectorsKept a hl (by rw [ha]; simpa using hj)⟩
  · have hl := h.values a j ha
    exact ⟨by rw [grow_old hl, ha], hs.valuesKept a hl (by rw [ha]; simpa using hj)⟩

theorem grow_lt {n n' i : Nat} {o : Nat → Option Nat} (h : ∀ a j, o a = some j → a < n) (hn : n ≤ n') :
    ∀ a j, grow n n' i o a = some j → a < n' := by
  intro a j ha
  rw [grow] at ha
  split at ha
  · rename_i h'
    exact h'.2
  · exact lt_of_lt_of_le (h a j ha) hn

theorem inv_set (h : Inv w ps ov ox) {i : Nat} {m' : Mem K V} (hs : Step w.mem m' ov ox i) {o' : Obj} {p' : Plain K V}
    (hi : Is m' (grow w.mem.vectors.length m'.vectors.length i ov) (grow w.mem.values.length m'.values.length i ox) i o' p') :
    Refines ⟨m', w.objs.set i o'⟩ (ps.set i p') := by
  refine ⟨_, _, grow_lt (i := i) h.vectors hs.vectors, grow_lt (i := i) h.values hs.values, by simp [h.length], fun j o p ho hp => ?_⟩
  by_cases hj : i = j
  · subst hj
    dsimp only at ho
    rw [List.getElem?_set] at ho hp
    simp only [if_true] at ho hp
    split at ho
    · injection ho with ho
      subst ho
      split at hp
      · injection hp with hp
        subst hp
        exact hi
      · cases hp
    · cases ho
  · dsimp only at ho
    rw [List.getElem?_set_ne hj] at ho hp
    exact others h hs (Ne.symm hj) ho hp

theorem set_same {α : Type} {l : List α} {i : Nat} {o : α} (h : l[i]? = some o) : l.set i o = l := by
  obtain ⟨hi, rfl⟩ := List.getElem?_eq_some_iff.1 h
  exact List.set_getElem_self hi

theorem inv_write (h : Inv w ps ov ox) {i : Nat} {m' : Mem K V} (hs : Step w.mem m' ov ox i) {o : Obj} (ho : w.objs[i]? = some o)
    {p' : Plain K V}
    (hi : Is m' (grow w.mem.vectors.length m'.vectors.length i ov) (grow w.mem.values.length m'.values.length i ox) i o p') :
    Refines ⟨m', w.objs⟩ (ps.set i p') := by
  have := inv_set h hs hi
  rwa [set_same ho] at this

theorem inv_add (h : Inv w ps ov ox) {m' : Mem K V} (hs : Step w.mem m' ov ox w.objs.length) {o' : Obj} {p' : Plain K V}
    (hi : Is m' (grow w.mem.vectors.length m'.vectors.length w.objs.length ov)
      (grow w.mem.values.length m'.values.length w.objs.length ox) w.objs.length o' p') :
    Refines ⟨m', w.objs ++ [o']⟩ (ps ++ [p']) := by
  refine ⟨_, _, grow_lt (i := w.objs.length) h.vectors hs.vectors, grow_lt (i := w.objs.length) h.values hs.values, by simp [h.length], fun j o p ho hp => ?_⟩
  have hl := h.length
  dsimp only at ho
  by_cases hj : j < w.objs.length
  · rw [List.getElem?_append_left hj] at ho
    rw [List.getElem?_append_left (by omega)] at hp
    exact others h hs (by omega) ho hp
  · rw [List.getElem?_append_right (by omega)] at ho hp
    by_cases hj' : j = w.objs.length
    · subst hj'
      rw [← hl] at hp
      simp only [Nat.sub_self, List.getElem?_cons_zero, Option.some.injEq] at ho hp
      subst ho
      subst hp
      exact hi
    · rw [List.getElem?_eq_none (by simp; omega)] at ho
      cases ho

theorem lookup (h : Inv w ps ov ox) {i : Nat} {p : Plain K V} (hp : ps[i]? = some p) :
    ∃ o, w.objs[i]? = some o ∧ Is w.mem ov ox i o p := by
  have hi : i < w.objs.length := by
    rw [h.length]
    exact (List.getElem?_eq_some_iff.1 hp).1
  exact ⟨_, List.getElem?_eq_getElem hi, h.objs i _ p (List.getElem?_eq_getElem hi) hp⟩

theorem lookup_none (h : Inv w ps ov ox) {i : Nat} (hp : ps[i]? = none) : w.objs[i]? = none := by
  rw [List.getElem?_eq_none_iff] at hp ⊢
  rw [h.length]
  exact hp

end

/-! ### Models -/

theorem find_some {as : List Nat} {i : Nat} (hi : i < as.length) : Models.find (as.map some) i = .ok (some as[i]) := by
  rw [Models.find, if_pos (by simpa using hi), if_neg (by omega)]
  simp [hi]

theorem add_next (ms : Models) (p : Option Nat) : ms.add ms.length p = .ok (ms ++ [p]) := by
  rw [Models.add, if_pos (by omega)]
  simp

theorem cloneModels_ok {ms : Models} : ∀ (is : List Nat) (vs : List (Value V)) (w : List (Value V)),
    List.Forall₂ (fun (i : Nat) v => ∃ a, ms.find i = .ok (some a) ∧ w[a]? = some v) is vs →
    cloneModels w ms is = .ok (w ++ vs, ((List.range is.length).map (w.length + ·)).map some)
  | [], _, w, h => by
    cases h
    simp [cloneModels]
  | i :: is, _, w, h => by
    cases h with
    | @cons _ v _ vs h1 h2 =>
    obtain ⟨a, h1, h3⟩ := h1
    have ih := cloneModels_ok (ms := ms) is vs (w ++ [v]) (h2.imp fun j u ⟨b, hb, hb'⟩ =>
      ⟨b, hb, by rw [List.getElem?_append_left (List.getElem?_eq_some_iff.1 hb').1]; exact hb'⟩)
    have hc : TypeErasure.clone v = v := rfl
    simp only [cloneModels, cloneModel, h1, h3, hc, ih, bind, Except.bind, pure, Except.pure]
    simp only [List.append_assoc, List.cons_append, List.nil_append, List.length_cons, List.range_succ_eq_map, List.map_cons, List.map_map,
      List.length_append, List.length_nil, Except.ok.injEq, Prod.mk.injEq, true_and, Nat.add_zero, List.cons.injEq]
    exact List.map_congr_left fun a _ => by simp; omega

theorem forall_range {α : Type} {w : List α} {as : List Nat} {vs : List α} (h : as.map (w[·]?) = vs.map some) :
    List.Forall₂ (fun (i : Nat) v => ∃ a, Models.find (as.map some) i = .ok (some a) ∧ w[a]? = some v) (List.range as.length) vs := by
  have hl : as.length = vs.length := by simpa using congrArg List.length h
  rw [List.forall₂_iff_get]
  refine ⟨by simpa using hl, fun i hi hi' => ?_⟩
  simp only [List.length_range] at hi
  simp only [List.get_eq_getElem, List.getElem_range]
  obtain ⟨x, h1, h2⟩ := map_getElem h hi
  refine ⟨as[i], find_some hi, ?_⟩
  rw [h1]
  rw [List.getElem?_eq_getElem (hl ▸ hi)] at h2
  exact h2.symm

theorem cloneAll_ok {w : List (Value V)} {as : List Nat} {vs : List (Value V)} (h : as.map (w[·]?) = vs.map some) :
    cloneModels w (as.map some) (List.range (as.map some).length) =
      .ok (w ++ vs, ((List.range as.length).map (w.length + ·)).map some) := by
  rw [List.length_map, cloneModels_ok _ vs w (forall_range h)]
  simp

theorem allocateNumeric_ok {armed : Bool} {ms : Models} : ∀ (is : List Nat) (vs : List (List K)) (h : Heap K),
    List.Forall₂ (fun (i : Nat) v => ∃ a, ms.find i = .ok (some a) ∧ h[a]? = some v) is vs →
    allocateNumeric armed h ms is = .ok (h ++ vs, (List.range is.length).map (h.length + ·))
  | [], _, w, h => by
    cases h
    simp [allocateNumeric]
  | i :: is, _, w, h => by
    cases h with
    | @cons _ v _ vs h1 h2 =>
    obtain ⟨a, h1, h3⟩ := h1
    have ih := allocateNumeric_ok (armed := armed) (ms := ms) is vs (w ++ [v]) (h2.imp fun j u ⟨b, hb, hb'⟩ =>
      ⟨b, hb, by rw [List.getElem?_append_left (List.getElem?_eq_some_iff.1 hb').1]; exact hb'⟩)
    simp only [allocateNumeric, cloneVectorModel, h1, h3, ih, bind, Except.bind, pure, Except.pure]
    simp only [List.append_assoc, List.cons_append, List.nil_append, List.length_cons, List.range_succ_eq_map, List.map_cons, List.map_map,
      List.length_append, List.length_nil, Except.ok.injEq, Prod.mk.injEq, true_and, Nat.add_zero, List.cons.injEq]
    exact List.map_congr_left fun a _ => by simp; omega

/-! ### Setting defaults -/

theorem basic_setFromVector (h : Heap K) {a : Nat} {old : List K} (ha : h[a]? = some old) (xs : List K) :
    (Vec.basic a).setFromVector h xs = if xs.length = old.length then .ok (h.set a xs) else .error .outOfRange := by
  simp only [Vec.setFromVector, Vec.size, valuesAt_some ha]
  by_cases hl : xs.length = old.length
  · rw [if_pos hl, if_neg (by simpa using hl)]
  · rw [if_neg hl, if_pos (by simpa using hl)]

theorem basic_setFrom (h : Heap K) {p a : Nat} {old xs : List K} (hp : h[p]? = some old) (ha : h[a]? = some xs)
    (hl : old.length = xs.length) : (Vec.basic p).setFrom h (.basic a) = .ok (h.set p xs) := by
  have hpl := (List.getElem?_eq_some_iff.1 hp).1
  have hal := (List.getElem?_eq_some_iff.1 ha).1
  have e1 : h.getD p [] = old := valuesAt_some hp
  have e2 : h.getD a [] = xs := valuesAt_some ha
  obtain ⟨h', h1, h2⟩ := StateVec.setFrom_ok (h := h) (v := .basic p) (u := .basic a) hpl hal
    (by simp only [Vec.size, valuesAt, e1, e2, hl])
    (by
      intro i _ j _ he
      simp only [StateVec.Spec.element, StateVec.Spec.range, Prod.mk.injEq] at he
      omega)
  rw [h1]
  obtain ⟨⟨hs1, hs2⟩, hc, hf⟩ := h2
  have hc' : h'.getD p [] = xs := by
    have := hs2 p
    simp only [StateVec.Spec.contents, StateVec.Spec.range, List.drop_zero, e2] at hc
    rw [List.take_of_length_le (le_refl _), List.take_of_length_le (le_refl _)] at hc
    exact hc
  congr 1
  apply List.ext_getElem?
  intro b
  by_cases hb : p = b
  · subst hb
    rw [List.getElem?_set_self hpl, List.getElem?_eq_getElem (by omega : p < h'.length)]
    rw [List.getD_eq_getElem?_getD, List.getElem?_eq_getElem (by omega : p < h'.length)] at hc'
    simpa using hc'
  · rw [List.getElem?_set_ne hb]
    by_cases hbl : b < h.length
    · have : h'.getD b [] = h.getD b [] := by
        apply List.ext_getElem?
        intro i
        apply hf
        intro j _ he
        simp only [StateVec.Spec.element, StateVec.Spec.range, Prod.mk.injEq] at he
        exact hb he.1
      rw [List.getElem?_eq_getElem hbl, List.getElem?_eq_getElem (by omega : b < h'.length)]
      rw [List.getD_eq_getElem?_getD, List.getD_eq_getElem?_getD, List.getElem?_eq_getElem hbl,
        List.getElem?_eq_getElem (by omega : b < h'.length)] at this
      simpa using this
    · rw [List.getElem?_eq_none (by omega), List.getElem?_eq_none (by omega)]

theorem setFrom_same (armed : Bool) (hash : CType → BitVec 64) {x y : Value V} (h : x.type = y.type) :
    TypeErasure.setFrom armed hash x y = .ok y := by
  have hm : isMaybeMatched armed hash y.type y = true := by
    rw [isMaybeMatched]
    split <;> simp
  simp only [TypeErasure.setFrom, TypeErasure.getValue, TypeErasure.cast, hm, h, if_true, bind, Except.bind, pure, Except.pure]

theorem forall_imp {α β : Type} {R R' : α → β → Prop} {as : List α} {bs : List β} (h : List.Forall₂ R as bs)
    (hi : ∀ a, ∀ b ∈ bs, R a b → R' a b) : List.Forall₂ R' as bs := by
  induction h with
  | nil => exact .nil
  | cons h1 h2 ih => exact .cons (hi _ _ (by simp) h1) (ih fun a b hb => hi a b (by simp [hb]))

theorem setDefaultNumeric_ok [One K] {ms : Models} {numeric : Discrete} (all : List Nat) : ∀ (is : List Nat) (pys : List (Nat × List K))
    (h : Heap K),
    List.Forall₂ (fun (i : Nat) (py : Nat × List K) => numeric.getVector i = .ok py.1 ∧
      (∃ a, ms.find i = .ok (some a) ∧ h[a]? = some py.2 ∧ a ∉ all) ∧
      ∃ x, h[py.1]? = some x ∧ x.length = py.2.length ∧ py.1 ∈ all) is pys → (pys.map (·.1)).Nodup →
    ∃ h', setDefaultNumeric h ms numeric is = (h', none) ∧ h.length ≤ h'.length ∧ (∀ py ∈ pys, h'[py.1]? = some py.2) ∧
      ∀ a < h.length, a ∉ pys.map (·.1) → h'[a]? = h[a]?
  | [], _, h, hf, _ => by
    cases hf
    exact ⟨h, rfl, le_refl _, by simp, by simp⟩
  | i :: is, _, h, hf, hn => by
    cases hf with
    | @cons _ py _ pys h1 h2 =>
    obtain ⟨g, ⟨a, ha, ha', hna⟩, x, hx, hxl, hpa⟩ := h1
    obtain ⟨p, y⟩ := py
    dsimp only at g ha' hx hxl hpa
    simp only [List.map_cons, List.nodup_cons] at hn
    have hpl := (List.getElem?_eq_some_iff.1 hx).1
    have hs := basic_setFrom (h ++ [y]) (p := p) (a := h.length) (old := x) (xs := y)
      (by rw [List.getElem?_append_left hpl]; exact hx) (by simp) hxl
    have hkeep : ∀ b < h.length, b ≠ p → ((h ++ [y]).set p y)[b]? = h[b]? := by
      intro b hb hbp
      rw [List.getElem?_set_ne (Ne.symm hbp), List.getElem?_append_left hb]
    obtain ⟨h', e, hl, hw, hk⟩ := setDefaultNumeric_ok (ms := ms) (numeric := numeric) all is pys ((h ++ [y]).set p y)
      (forall_imp h2 (by
        rintro j ⟨q, z⟩ hq ⟨g1, ⟨b, g2, g3, g4⟩, x', g5, g6, g7⟩
        refine ⟨g1, ⟨b, g2, ?_, g4⟩, x', ?_, g6, g7⟩
        · rw [hkeep b (List.getElem?_eq_some_iff.1 g3).1 (by rintro rfl; exact g4 hpa)]
          exact g3
        · have hqp : q ≠ p := by
            rintro rfl
            exact hn.1 (List.mem_map.2 ⟨_, hq, rfl⟩)
          rw [hkeep q (List.getElem?_eq_some_iff.1 g5).1 hqp]
          exact g5)) hn.2
    refine ⟨h', ?_, ?_, ?_, ?_⟩
    · simp only [setDefaultNumeric, g, cloneVectorModel, ha, ha', bind, Except.bind, pure, Except.pure, hs, e]
    · simp at hl
      omega
    · intro py hpy
      rcases List.mem_cons.1 hpy with rfl | hpy
      · rw [hk p (by simp; omega) hn.1, List.getElem?_set_self (by simp; omega)]
      · exact hw py hpy
    · intro b hb hbn
      simp only [List.map_cons, List.mem_cons, not_or] at hbn
      rw [hk b (by simp; omega) hbn.2, hkeep b hb hbn.1]

theorem setDefaultAbstract_ok {armed : Bool} {hash : CType → BitVec 64} {ms : Models} {abstract : Abstract} (all : List Nat) :
    ∀ (is : List Nat) (pys : List (Nat × Value V)) (h : List (Value V)),
    List.Forall₂ (fun (i : Nat) (py : Nat × Value V) => abstract.getValue armed i = .ok py.1 ∧
      (∃ a, ms.find i = .ok (some a) ∧ h[a]? = some py.2 ∧ a ∉ all) ∧
      ∃ x, h[py.1]? = some x ∧ x.type = py.2.type ∧ py.1 ∈ all) is pys → (pys.map (·.1)).Nodup →
    ∃ h', setDefaultAbstract armed hash h ms abstract is = (h', none) ∧ h.length ≤ h'.length ∧ (∀ py ∈ pys, h'[py.1]? = some py.2) ∧
      ∀ a < h.length, a ∉ pys.map (·.1) → h'[a]? = h[a]?
  | [], _, h, hf, _ => by
    cases hf
    exact ⟨h, rfl, le_refl _, by simp, by simp⟩
  | i :: is, _, h, hf, hn => by
    cases hf with
    | @cons _ py _ pys h1 h2 =>
    obtain ⟨g, ⟨a, ha, ha', hna⟩, x, hx, hxl, hpa⟩ := h1
    obtain ⟨p, y⟩ := py
    dsimp only at g ha' hx hxl hpa
    simp only [List.map_cons, List.nodup_cons] at hn
    have hpl := (List.getElem?_eq_some_iff.1 hx).1
    have hx' : (h ++ [y])[p]? = some x := by rw [List.getElem?_append_left hpl]; exact hx
    have hy' : (h ++ [y])[h.length]? = some y := by simp
    have hkeep : ∀ b < h.length, b ≠ p → ((h ++ [y]).set p y)[b]? = h[b]? := by
      intro b hb hbp
      rw [List.getElem?_set_ne (Ne.symm hbp), List.getElem?_append_left hb]
    obtain ⟨h', e, hl, hw, hk⟩ := setDefaultAbstract_ok (armed := armed) (hash := hash) (ms := ms) (abstract := abstract) all is pys
      ((h ++ [y]).set p y)
      (forall_imp h2 (by
        rintro j ⟨q, z⟩ hq ⟨g1, ⟨b, g2, g3, g4⟩, x', g5, g6, g7⟩
        refine ⟨g1, ⟨b, g2, ?_, g4⟩, x', ?_, g6, g7⟩
        · rw [hkeep b (List.getElem?_eq_some_iff.1 g3).1 (by rintro rfl; exact g4 hpa)]
          exact g3
        · have hqp : q ≠ p := by
            rintro rfl
            exact hn.1 (List.mem_map.2 ⟨_, hq, rfl⟩)
          rw [hkeep q (List.getElem?_eq_some_iff.1 g5).1 hqp]
          exact g5)) hn.2
    have hc : TypeErasure.clone y = y := rfl
    refine ⟨h', ?_, ?_, ?_, ?_⟩
    · simp only [setDefaultAbstract, g, cloneModel, ha, ha', hc, bind, Except.bind, pure, Except.pure, copyLoop, hx', hy',
        setFrom_same armed hash hxl, e]
    · simp at hl
      omega
    · intro py hpy
      rcases List.mem_cons.1 hpy with rfl | hpy
      · rw [hk p (by simp; omega) hn.1, List.getElem?_set_self (by simp; omega)]
      · exact hw py hpy
    · intro b hb hbn
      simp only [List.map_cons, List.mem_cons, not_or] at hbn
      rw [hk b (by simp; omega) hbn.2, hkeep b hb hbn.1]

theorem setFromLoop_le {armed : Bool} {hash : CType → BitVec 64} (ps qs : List Nat) (hl : ps.length ≤ qs.length) :
    ∀ (n i : Nat) (w : List (Value V)), n + i = ps.length →
    Abstract.setFromLoop armed hash w (ps.map some) (qs.map some) n i =
      copyLoop (TypeErasure.setFrom armed hash) w ((ps.drop i).zip (qs.drop i))
  | 0, i, w, h => by
    have : ps.drop i = [] := List.drop_eq_nil_of_le (by omega)
    simp [Abstract.setFromLoop, this, copyLoop]
  | n + 1, i, w, h => by
    have hi : i < ps.length := by omega
    have hi' : i < qs.length := by omega
    rw [Abstract.setFromLoop, getValue_some ps hi, getValue_some qs hi']
    rw [List.drop_eq_getElem_cons hi, List.drop_eq_getElem_cons hi', List.zip_cons_cons]
    have ih := fun w => setFromLoop_le (armed := armed) (hash := hash) ps qs hl n (i + 1) w (by omega)
    simp only [copyLoop]
    cases h1 : w[ps[i]]? with
    | none => simp
    | some x =>
      cases h2 : w[qs[i]]? with
      | none => simp
      | some y =>
        dsimp only
        cases h3 : TypeErasure.setFrom armed hash x y with
        | error e => simp
        | ok z =>
          dsimp only
          exact ih _

/-- Copying entries that all fit. -/
theorem copyLoop_all {α : Type} {f : α → α → Except Err α} (w : List α) (ps qs : List Nat) (xs ys : List α)
    (hx : ps.map (w[·]?) = xs.map some) (hy : qs.map (w[·]?) = ys.map some) (hn : ps.Nodup) (hl : ps.length ≤ qs.length)
    (hd : ∀ p ∈ ps, p ∉ qs) (hf : List.Forall₂ (fun x y => f x y = .ok y) xs (ys.take xs.length)) :
    ∃ w', copyLoop f w (ps.zip qs) = (w', none) ∧ ps.map (w'[·]?) = (ys.take xs.length).map some ∧ w'.length = w.length ∧
      ∀ a, a ∉ ps → w'[a]? = w[a]? := by
  induction ps generalizing w qs xs ys with
  | nil =>
    have : xs = [] := by simpa using hx.symm
    subst this
    exact ⟨w, by simp [copyLoop], by simp, rfl, fun _ _ => rfl⟩
  | cons p ps ih =>
    cases xs with
    | nil => simp at hx
    | cons x xs =>
      cases qs with
      | nil => simp at hl
      | cons q qs =>
        cases ys with
        | nil => simp at hy
        | cons y ys =>
          simp only [List.map_cons, List.cons.injEq] at hx hy
          simp only [List.nodup_cons] at hn
          simp only [List.length_cons, List.take_succ_cons, List.forall₂_cons] at hf
          have hpw := (List.getElem?_eq_some_iff.1 hx.1).1
          have hpq : p ∉ qs := fun h => hd p (by simp) (by simp [h])
          obtain ⟨w', h1, h2, h3, h4⟩ := ih (w.set p y) qs xs ys (by rw [map_set_notMem y hn.1]; exact hx.2)
            (by rw [map_set_notMem y hpq]; exact hy.2) hn.2 (by simpa using hl)
            (fun a ha hb => hd a (by simp [ha]) (by simp [hb])) hf.2
          refine ⟨w', ?_, ?_, by simpa using h3, ?_⟩
          · simp only [List.zip_cons_cons, copyLoop, hx.1, hy.1, hf.1, h1]
          · simp only [List.map_cons, List.length_cons, List.take_succ_cons, h2, List.cons.injEq, and_true]
            rw [h4 p hn.1, List.getElem?_set_self hpw]
          · intro a ha
            simp only [List.mem_cons, not_or] at ha
            rw [h4 a ha.2, List.getElem?_set_ne (Ne.symm ha.1)]

/-- Only the parts of `k` are changed, and everything new is behind what there was. -/
structure Kept (m m' : Mem K V) (k : Layout) : Prop where
  vectors : m.vectors.length ≤ m'.vectors.length
  values : m.values.length ≤ m'.values.length
  vectorsKept : ∀ a < m.vectors.length, a ∉ k.vectors → m'.vectors[a]? = m.vectors[a]?
  valuesKept : ∀ a < m.values.length, a ∉ k.values → m'.values[a]? = m.values[a]?

theorem Kept.refl (m : Mem K V) (k : Layout) : Kept m m k := ⟨le_refl _, le_refl _, fun _ _ _ => rfl, fun _ _ _ => rfl⟩

theorem Kept.trans {m m' m'' : Mem K V} {k : Layout} (h : Kept m m' k) (h' : Kept m' m'' k) : Kept m m'' k where
  vectors := le_trans h.vectors h'.vectors
  values := le_trans h.values h'.values
  vectorsKept a ha hk := by rw [h'.vectorsKept a (lt_of_lt_of_le ha h.vectors) hk, h.vectorsKept a ha hk]
  valuesKept a ha hk := by rw [h'.valuesKept a (lt_of_lt_of_le ha h.values) hk, h.valuesKept a ha hk]

theorem mem_vectors_lt {m : Mem K V} {l : Layout} {d : Data K V} (h : At m l d) {a : Nat} (ha : a ∈ l.vectors) : a < m.vectors.length := by
  simp only [Layout.vectors, List.mem_cons, List.mem_append] at ha
  rcases ha with rfl | ha | ha
  · exact (List.getElem?_eq_some_iff.1 h.continuous).1
  · exact mem_lt h.discrete a ha
  · exact mem_lt h.numeric a ha

theorem mem_values_lt {m : Mem K V} {l : Layout} {d : Data K V} (h : At m l d) {a : Nat} (ha : a ∈ l.values) : a < m.values.length := by
  simp only [Layout.values, List.mem_append] at ha
  rcases ha with ha | ha
  · exact mem_lt h.abstract a ha
  · exact mem_lt h.parameters a ha

theorem at_kept {m m' : Mem K V} {l k : Layout} {d : Data K V} (h : At m l d) (hk : Kept m m' k) (hv : ∀ a ∈ l.vectors, a ∉ k.vectors)
    (hx : ∀ a ∈ l.values, a ∉ k.values) : At m' l d := by
  have h1 : ∀ as : List Nat, (∀ a ∈ as, a ∈ l.vectors) → as.map (m'.vectors[·]?) = as.map (m.vectors[·]?) := fun as hs =>
    List.map_congr_left fun a ha => hk.vectorsKept a (mem_vectors_lt h (hs a ha)) (hv a (hs a ha))
  have h2 : ∀ as : List Nat, (∀ a ∈ as, a ∈ l.values) → as.map (m'.values[·]?) = as.map (m.values[·]?) := fun as hs =>
    List.map_congr_left fun a ha => hk.valuesKept a (mem_values_lt h (hs a ha)) (hx a (hs a ha))
  refine ⟨?_, ?_, ?_, ?_, ?_⟩
  · have hm : l.continuous ∈ l.vectors := by simp [Layout.vectors]
    rw [hk.vectorsKept _ (mem_vectors_lt h hm) (hv _ hm)]
    exact h.continuous
  · rw [h1 _ fun a h => by simp [Layout.vectors, h]]
    exact h.discrete
  · rw [h2 _ fun a h => by simp [Layout.values, h]]
    exact h.abstract
  · rw [h1 _ fun a h => by simp [Layout.vectors, h]]
    exact h.numeric
  · rw [h2 _ fun a h => by simp [Layout.values, h]]
    exact h.parameters

theorem forall_prefix {α β : Type} [DecidableEq β] (f : α → β) {xs ys : List α} (h : xs.map f <+: ys.map f) :
    List.Forall₂ (fun x y => f x = f y) xs (ys.take xs.length) ∧ xs.length ≤ ys.length := by
  induction xs generalizing ys with
  | nil => simp
  | cons x xs ih =>
    cases ys with
    | nil => simp at h
    | cons y ys =>
      simp only [List.map_cons, List.cons_prefix_cons] at h
      have := ih h.2
      simp only [List.length_cons, List.take_succ_cons, List.forall₂_cons]
      exact ⟨⟨h.1, this.1⟩, by omega⟩

theorem setContinuousFrom_ok {armed : Bool} {h : Heap K} {k : Layout} {old : List K} (hk : h[k.continuous]? = some old) (s nq nv nz : Nat)
    (xs : List K) : setContinuousFrom armed h (k.context s nq nv nz).state.continuous xs =
      if xs.length = old.length then .ok (h.set k.continuous xs) else .error (if armed then .aborts else .outOfRange) := by
  simp only [setContinuousFrom, Layout.context, basic_setFromVector h hk, Vec.size, valuesAt_some hk]
  by_cases hl : xs.length = old.length
  · rw [if_neg (by simp [hl]), if_pos hl, if_pos hl]
  · cases armed
    · rw [if_neg (by simp), if_neg hl, if_neg hl]
      rfl
    · rw [if_pos ⟨rfl, by simpa using hl⟩, if_neg hl]
      rfl

theorem setDefaultState_ok [Zero K] {armed : Bool} {hash : CType → BitVec 64} {m : Mem K V} {l k : Layout} {d x : Data K V}
    (hl : At m l d) (hk : At m k x) (hn : k.vectors.Nodup) (hn' : k.values.Nodup) (hd : ∀ a ∈ l.vectors, a ∉ k.vectors)
    (hf : Fits d x) (nq nv nz : Int) (id s a b c : Nat) :
    ∃ m', setDefaultState armed hash m id (l.system nq nv nz) id id (k.context s a b c).state = (m', (x.withState armed d).2) ∧
      At m' k (x.withState armed d).1 ∧ Kept m m' k := by
  have e1 : valuesAt m.vectors (l.system nq nv nz).continuous = d.continuous := valuesAt_some hl.continuous
  have ld : l.discrete.length = d.discrete.length := by simpa using congrArg List.length hl.discrete
  have kd : k.discrete.length = x.discrete.length := by simpa using congrArg List.length hk.discrete
  have la : l.abstract.length = d.abstract.length := by simpa using congrArg List.length hl.abstract
  have ka : k.abstract.length = x.abstract.length := by simpa using congrArg List.length hk.abstract
  have hc : k.continuous < m.vectors.length := (List.getElem?_eq_some_iff.1 hk.continuous).1
  have hn1 : k.continuous ∉ k.discrete ∧ k.continuous ∉ k.numeric := by
    have := (List.nodup_cons.1 hn).1
    simpa [not_or] using this
  have hn2 : k.discrete.Nodup ∧ k.numeric.Nodup ∧ ∀ a ∈ k.discrete, a ∉ k.numeric := by
    have := List.nodup_append.1 (List.nodup_cons.1 hn).2
    exact ⟨this.1, this.2.1, fun a ha hb => this.2.2 a ha a hb rfl⟩
  have hn3 : k.abstract.Nodup ∧ k.parameters.Nodup ∧ ∀ a ∈ k.abstract, a ∉ k.parameters := by
    have := List.nodup_append.1 hn'
    exact ⟨this.1, this.2.1, fun a ha hb => this.2.2 a ha a hb rfl⟩
  have hcl : k.continuous ∉ l.discrete := fun h => hd k.continuous (by simp [Layout.vectors, h]) (by simp [Layout.vectors])
  unfold setDefaultState
  rw [if_neg (by simp), if_neg (by simp), e1, setContinuousFrom_ok hk.continuous]
  unfold Data.withState
  by_cases hc1 : x.continuous.length = d.continuous.length
  swap
  · rw [if_pos hc1, if_neg (Ne.symm hc1)]
    exact ⟨m, rfl, hk, Kept.refl m k⟩
  rw [if_neg (not_not.2 hc1), if_pos hc1.symm]
  dsimp only
  -- the continuous variables are set
  have at1 : At ⟨m.vectors.set k.continuous d.continuous, m.values⟩ k { x with continuous := d.continuous } := by
    refine ⟨?_, ?_, hk.abstract, ?_, hk.parameters⟩
    · exact List.getElem?_set_self hc
    · rw [← hk.discrete]
      exact map_set_notMem _ hn1.1
    · rw [← hk.numeric]
      exact map_set_notMem _ hn1.2
  have kept1 : Kept m ⟨m.vectors.set k.continuous d.continuous, m.values⟩ k := by
    refine ⟨by simp, le_refl _, fun a _ hna => ?_, fun _ _ _ => rfl⟩
    exact List.getElem?_set_ne fun e => hna (by simp [Layout.vectors, ← e])
  by_cases hc2 : x.discrete.length = d.discrete.length
  swap
  · have hz : d.discrete.length ≠ 0 := by
      have := (forall_prefix List.length hf.discrete).2
      omega
    rw [if_pos hc2, if_pos (by
      simp only [Layout.system, Layout.context]
      omega)]
    exact ⟨_, rfl, at1, kept1⟩
  rw [if_neg (not_not.2 hc2), if_neg (by
    simp only [Layout.system, Layout.context]
    omega)]
  -- the discrete variables are set
  have hstep : ∃ h', (if (l.system nq nv nz).discrete.length > 0 then
      Discrete.setFrom (m.vectors.set k.continuous d.continuous) (k.context s a b c).state.discrete (l.system nq nv nz).discrete
      else zeroGroups (m.vectors.set k.continuous d.continuous) (k.context s a b c).state.discrete) = (h', none) ∧
      k.discrete.map (h'[·]?) = d.discrete.map some ∧ h'.length = m.vectors.length ∧
      ∀ a, a ∉ k.discrete → h'[a]? = (m.vectors.set k.continuous d.continuous)[a]? := by
    by_cases hz : d.discrete.length = 0
    · have hz' : k.discrete = [] := List.length_eq_zero_iff.1 (by omega)
      rw [if_neg (by simp only [Layout.system]; omega)]
      refine ⟨_, by simp only [Layout.context, hz', zeroGroups], ?_, by simp, fun _ _ => rfl⟩
      rw [hz', List.length_eq_zero_iff.1 hz]
      rfl
    · rw [if_pos (by simp only [Layout.system]; omega)]
      have hfd := (forall_prefix List.length hf.discrete).1
      obtain ⟨h', g1, g2, g3, g4⟩ := copyLoop_all (f := copyGroup) (m.vectors.set k.continuous d.continuous) k.discrete l.discrete
        x.discrete d.discrete at1.discrete (by rw [map_set_notMem _ hcl]; exact hl.discrete) hn2.1 (by omega)
        (fun a ha hb => hd a (by simp [Layout.vectors, hb]) (by simp [Layout.vectors, ha]))
        (hfd.imp fun x y h => by rw [copyGroup, if_pos h])
      refine ⟨h', ?_, ?_, by simpa using g3, g4⟩
      · have : (k.context s a b c).state.discrete.length = (l.system nq nv nz).discrete.length := by
          simp only [Layout.system, Layout.context]
          omega
        rw [Discrete.setFrom, if_pos this]
        exact g1
      · rw [g2, List.take_of_length_le (by omega)]
  obtain ⟨h', g1, g2, g3, g4⟩ := hstep
  rw [g1]
  dsimp only
  have at2 : At ⟨h', m.values⟩ k { x with continuous := d.continuous, discrete := d.discrete } := by
    refine ⟨?_, g2, hk.abstract, ?_, hk.parameters⟩
    · dsimp only
      rw [g4 _ hn1.1]
      exact List.getElem?_set_self hc
    · rw [← hk.numeric]
      apply List.map_congr_left
      intro a ha
      rw [g4 a fun h => hn2.2.2 a h ha]
      exact List.getElem?_set_ne fun e => hn1.2 (by rw [e]; exact ha)
  have kept2 : Kept m ⟨h', m.values⟩ k := by
    refine ⟨by simp [g3], le_refl _, fun a _ hna => ?_, fun _ _ _ => rfl⟩
    dsimp only
    rw [g4 a fun h => hna (by simp [Layout.vectors, h])]
    exact List.getElem?_set_ne fun e => hna (by simp [Layout.vectors, ← e])
  -- the abstract variables are set
  have hcl := cloneAll_ok hl.abstract
  have hcl' : cloneModels m.values (l.system nq nv nz).abstract (List.range (l.system nq nv nz).abstract.length) =
    .ok (m.values ++ d.abstract, ((List.range l.abstract.length).map (m.values.length + ·)).map some) := hcl
  rw [hcl']
  dsimp only
  unfold Abstract.setFrom
  have hlen : (armed = true ∧ (k.context s a b c).state.abstract.length ≠
      (((List.range l.abstract.length).map (m.values.length + ·)).map some).length) ↔
      (armed = true ∧ x.abstract.length ≠ d.abstract.length) := by
    simp [Layout.context, ka, la]
  by_cases hc3 : armed = true ∧ x.abstract.length ≠ d.abstract.length
  · rw [if_pos (hlen.2 hc3), if_pos hc3]
    refine ⟨_, rfl, ?_, ?_⟩
    · exact ⟨at2.continuous, at2.discrete, map_append_left _ hk.abstract, at2.numeric, map_append_left _ hk.parameters⟩
    · refine ⟨by simp [g3], by simp, kept2.vectorsKept, fun a ha _ => ?_⟩
      exact List.getElem?_append_left ha
  rw [if_neg fun h => hc3 (hlen.1 h), if_neg hc3]
  have hfa := forall_prefix (fun v : Value V => v.type) hf.abstract
  have hb : (k.context s a b c).state.abstract = k.abstract.map some := rfl
  rw [hb, List.length_map, setFromLoop_le k.abstract _ (by simp; omega) _ 0 _ (by simp)]
  rw [List.drop_zero, List.drop_zero]
  obtain ⟨w', f1, f2, f3, f4⟩ := copyLoop_all (f := TypeErasure.setFrom armed hash) (m.values ++ d.abstract) k.abstract
    ((List.range l.abstract.length).map (m.values.length + ·)) x.abstract d.abstract (map_append_left _ hk.abstract)
    (by rw [la]; exact map_fresh m.values d.abstract) hn3.1 (by simp; omega)
    (by
      intro a ha hb
      have := mem_lt hk.abstract a ha
      simp only [List.mem_map, List.mem_range] at hb
      obtain ⟨j, _, hj⟩ := hb
      omega)
    (hfa.1.imp fun x y h => setFrom_same armed hash h)
  rw [f1]
  refine ⟨_, rfl, ?_, ?_⟩
  · refine ⟨at2.continuous, at2.discrete, f2, at2.numeric, ?_⟩
    dsimp only
    rw [← map_append_left d.abstract hk.parameters]
    exact List.map_congr_left fun a ha => f4 a fun h => hn3.2.2 a h ha
  · refine ⟨by simp [g3], by simp [f3], kept2.vectorsKept, fun a ha hna => ?_⟩
    dsimp only
    rw [f4 a fun h => hna (by simp [Layout.values, h])]
    exact List.getElem?_append_left ha

theorem forall_params {α : Type} {w : List α} {size : α → Nat ⊕ CType} {ks ls : List Nat} {xs ys : List α}
    (get : Nat → Except Err Nat) (hget : ∀ (i : Nat) (h : i < ks.length), get i = .ok ks[i])
    (hx : ks.map (w[·]?) = xs.map some) (hy : ls.map (w[·]?) = ys.map some) (hd : ∀ a ∈ ls, a ∉ ks)
    (hf : List.Forall₂ (fun x y => size x = size y) xs (ys.take xs.length)) (hle : xs.length ≤ ys.length) :
    List.Forall₂ (fun (i : Nat) (py : Nat × α) => get i = .ok py.1 ∧
      (∃ a, Models.find (ls.map some) i = .ok (some a) ∧ w[a]? = some py.2 ∧ a ∉ ks) ∧
      ∃ x, w[py.1]? = some x ∧ size x = size py.2 ∧ py.1 ∈ ks) (List.range ks.length) (ks.zip (ys.take xs.length)) := by
  have e1 : ks.length = xs.length := by simpa using congrArg List.length hx
  have e2 : ls.length = ys.length := by simpa using congrArg List.length hy
  rw [List.forall₂_iff_get]
  refine ⟨by simp; omega, fun i hi hi' => ?_⟩
  simp only [List.length_range] at hi
  simp only [List.get_eq_getElem, List.getElem_range, List.getElem_zip, List.getElem_take]
  have hil : i < ls.length := by omega
  obtain ⟨x, hx1, hx2⟩ := map_getElem hx hi
  obtain ⟨y, hy1, hy2⟩ := map_getElem hy hil
  have hyi : ys[i]'(by omega) = y := by
    rw [List.getElem?_eq_getElem (by omega : i < ys.length)] at hy2
    injection hy2
  refine ⟨hget i hi, ⟨ls[i], find_some hil, by rw [hyi]; exact hy1, hd _ (List.getElem_mem hil)⟩, x, hx1, ?_, List.getElem_mem hi⟩
  have := (List.forall₂_iff_get.1 hf).2 i (by omega) (by simp; omega)
  simp only [List.get_eq_getElem, List.getElem_take] at this
  rw [← this]
  rw [List.getElem?_eq_getElem (by omega : i < xs.length)] at hx2
  injection hx2 with hx2
  rw [hx2]

theorem map_of_zip {α : Type} {w : List α} {ks : List Nat} {ys : List α} (hl : ks.length = ys.length)
    (h : ∀ py ∈ ks.zip ys, w[py.1]? = some py.2) : ks.map (w[·]?) = ys.map some := by
  apply List.ext_getElem
  · simpa using hl
  · intro i h1 h2
    simp only [List.length_map] at h1
    simp only [List.getElem_map]
    have := h (ks[i], ys[i]'(by omega)) (by
      rw [List.mem_iff_getElem]
      exact ⟨i, by simp; omega, by simp⟩)
    exact this

theorem getVector_ok {d : Discrete} {i : Nat} (hi : i < d.length) : d.getVector (i : Int) = .ok d[i] := by
  have : (0 : Int) ≤ i ∧ (i : Int) < d.length := by omega
  simp only [Discrete.getVector, throwUnless, this, and_self, decide_true, if_true, bind, Except.bind, Int.toNat_natCast,
    List.getElem?_eq_getElem hi]

theorem setDefaultParameters_ok [One K] {armed : Bool} {hash : CType → BitVec 64} {m : Mem K V} {l k : Layout} {d x : Data K V}
    (hl : At m l d) (hk : At m k x) (hn : k.vectors.Nodup) (hn' : k.values.Nodup) (hd : ∀ a ∈ l.vectors, a ∉ k.vectors)
    (hd' : ∀ a ∈ l.values, a ∉ k.values) (hf : Fits d x) (nq nv nz : Int) (id s a b c : Nat) :
    ∃ m', setDefaultParameters armed hash m id (l.system nq nv nz) id id (k.context s a b c).parameters = (m', none) ∧
      At m' k (x.withParameters d) ∧ Kept m m' k := by
  have kn : k.numeric.length = x.numeric.length := by simpa using congrArg List.length hk.numeric
  have kp : k.parameters.length = x.parameters.length := by simpa using congrArg List.length hk.parameters
  have hn1 : k.continuous ∉ k.discrete ∧ k.continuous ∉ k.numeric := by
    have := (List.nodup_cons.1 hn).1
    simpa [not_or] using this
  have hn2 : k.discrete.Nodup ∧ k.numeric.Nodup ∧ ∀ a ∈ k.discrete, a ∉ k.numeric := by
    have := List.nodup_append.1 (List.nodup_cons.1 hn).2
    exact ⟨this.1, this.2.1, fun a ha hb => this.2.2 a ha a hb rfl⟩
  have hn3 : k.abstract.Nodup ∧ k.parameters.Nodup ∧ ∀ a ∈ k.abstract, a ∉ k.parameters := by
    have := List.nodup_append.1 hn'
    exact ⟨this.1, this.2.1, fun a ha hb => this.2.2 a ha a hb rfl⟩
  have hfn := forall_prefix List.length hf.numeric
  have hfp := forall_prefix (fun v : Value V => v.type) hf.parameters
  have hzip : ∀ {α : Type} (ks : List Nat) (ys : List α), (ks.zip ys).map (·.1) <+: ks := by
    intro α ks
    induction ks with
    | nil => simp
    | cons k ks ih =>
      intro ys
      cases ys with
      | nil => simp
      | cons y ys => simpa using ih ys
  obtain ⟨h', g1, g2, g3, g4⟩ := setDefaultNumeric_ok (K := K) (ms := l.numeric.map some) (numeric := k.numeric) k.numeric
    (List.range k.numeric.length) (k.numeric.zip (d.numeric.take x.numeric.length)) m.vectors
    (forall_imp (forall_params (size := fun x : List K => .inl x.length) (fun i => Discrete.getVector k.numeric (i : Int))
      (fun i hi => getVector_ok hi) hk.numeric hl.numeric
      (fun a ha hb => hd a (by simp [Layout.vectors, ha]) (by simp [Layout.vectors, hb]))
      (hfn.1.imp fun _ _ h => by rw [h]) hfn.2) (by
        rintro i py _ ⟨q1, q2, z, q3, q4, q5⟩
        exact ⟨q1, q2, z, q3, by injection q4, q5⟩))
    ((hzip _ _).sublist.nodup hn2.2.1)
  obtain ⟨w', f1, f2, f3, f4⟩ := setDefaultAbstract_ok (armed := armed) (hash := hash) (ms := l.parameters.map some)
    (abstract := k.parameters.map some) k.parameters
    (List.range k.parameters.length) (k.parameters.zip (d.parameters.take x.parameters.length)) m.values
    (forall_imp (forall_params (size := fun x : Value V => .inr x.type) (fun i => Abstract.getValue armed (k.parameters.map some) (i : Int))
      (fun i hi => getValue_some k.parameters hi) hk.parameters hl.parameters
      (fun a ha hb => hd' a (by simp [Layout.values, ha]) (by simp [Layout.values, hb]))
      (hfp.1.imp fun _ _ h => by rw [h]) hfp.2) (by
        rintro i py _ ⟨q1, q2, z, q3, q4, q5⟩
        exact ⟨q1, q2, z, q3, by injection q4, q5⟩))
    ((hzip _ _).sublist.nodup hn3.2.1)
  have hzn : ∀ {α : Type} (ks : List Nat) (ys : List α) {a : Nat}, a ∉ ks → a ∉ (ks.zip ys).map (·.1) :=
    fun ks ys _ ha hb => ha ((hzip ks ys).subset hb)
  unfold setDefaultParameters
  rw [if_neg (by simp), if_neg (by simp)]
  have e1 : setDefaultNumeric m.vectors (l.system nq nv nz).numeric (k.context s a b c).parameters.numeric
    (List.range (k.context s a b c).parameters.numeric.length) = (h', none) := g1
  have e2 : setDefaultAbstract armed hash m.values (l.system nq nv nz).parameters (k.context s a b c).parameters.abstract
      (List.range (k.context s a b c).parameters.abstract.length) = (w', none) := by
    have : (k.context s a b c).parameters.abstract.length = k.parameters.length := by simp [Layout.context]
    rw [this]
    exact f1
  rw [e1]
  dsimp only
  rw [e2]
  refine ⟨_, rfl, ⟨?_, ?_, ?_, ?_, ?_⟩, ⟨g2, f2, fun a ha hna => ?_, fun a ha hna => ?_⟩⟩
  · dsimp only
    rw [g4 _ (List.getElem?_eq_some_iff.1 hk.continuous).1 (hzn _ _ hn1.2)]
    exact hk.continuous
  · refine Eq.trans (List.map_congr_left fun a ha => ?_) hk.discrete
    exact g4 a (mem_lt hk.discrete a ha) (hzn _ _ (hn2.2.2 a ha))
  · refine Eq.trans (List.map_congr_left fun a ha => ?_) hk.abstract
    exact f4 a (mem_lt hk.abstract a ha) (hzn _ _ (hn3.2.2 a ha))
  · exact map_of_zip (ys := d.numeric.take x.numeric.length) (by rw [List.length_take]; omega) g3
  · exact map_of_zip (ys := d.parameters.take x.parameters.length) (by rw [List.length_take]; omega) f3
  · exact g4 a ha (hzn _ _ fun h => hna (by simp [Layout.vectors, h]))
  · exact f4 a ha (hzn _ _ fun h => hna (by simp [Layout.values, h]))

end Maliput.LeafDefaults
