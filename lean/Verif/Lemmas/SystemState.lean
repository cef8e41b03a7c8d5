import Verif.Spec.SystemState
import Verif.Lemmas.StateVectorHistory
import Verif.Lemmas.TypeText
import Mathlib.Data.List.Nodup

set_option autoImplicit false

namespace Maliput.SysState
open Maliput StateVec TypeErasure Spec

variable {K V α : Type}

/-! ### Loops -/

theorem map_set_notMem {w : List α} {ps : List Nat} {p : Nat} (y : α) (h : p ∉ ps) :
    ps.map ((w.set p y)[·]?) = ps.map (w[·]?) := by
  apply List.map_congr_left
  intro a ha
  exact List.getElem?_set_ne (by rintro rfl; exact h ha)

theorem copyLoop_copied {f : α → α → Except Err α} {fits : α → α → Bool} (w : List α) (ps qs : List Nat) (xs ys : List α)
    (hx : ps.map (w[·]?) = xs.map some) (hy : qs.map (w[·]?) = ys.map some) (hn : ps.Nodup)
    (hl : ps.length = qs.length)
    (hd : ps = qs ∨ ∀ p ∈ ps, p ∉ qs)
    (hf : ∀ x ∈ xs, ∀ y ∈ ys, f x y = if fits x y then .ok y else .error .throws) :
    ∃ w', copyLoop f w (ps.zip qs) = (w', (copied fits xs ys).2) ∧ ps.map (w'[·]?) = (copied fits xs ys).1.map some ∧
      ∀ a, a ∉ ps → w'[a]? = w[a]? := by
  induction ps generalizing w qs xs ys with
  | nil =>
    have : xs = [] := by simpa using hx.symm
    subst this
    exact ⟨w, by simp [copyLoop, copied], by simp [copied], fun _ _ => rfl⟩
  | cons p ps ih =>
    cases qs with
    | nil => simp at hl
    | cons q qs =>
      cases xs with
      | nil => simp at hx
      | cons x xs =>
        cases ys with
        | nil => simp at hy
        | cons y ys =>
          simp only [List.map_cons, List.cons.injEq] at hx hy
          rw [List.nodup_cons] at hn
          simp only [List.length_cons, Nat.add_right_cancel_iff] at hl
          simp only [List.zip_cons_cons, copyLoop, hx.1, hy.1, hf x (by simp) y (by simp), copied]
          by_cases hfit : fits x y
          · simp only [hfit, if_true]
            have hp : p < w.length := (List.getElem?_eq_some_iff.1 hx.1).1
            obtain ⟨w', h1, h2, h3⟩ := ih (w.set p y) qs xs ys (by rw [map_set_notMem y hn.1]; exact hx.2)
              (by
                rw [map_set_notMem]
                · exact hy.2
                · rcases hd with hd | hd
                  · injection hd with _ hd
                    exact hd ▸ hn.1
                  · intro h
                    exact hd p (by simp) (by simp [h]))
              hn.2 hl
              (by
                rcases hd with hd | hd
                · left
                  injection hd
                · right
                  intro a ha h
                  exact hd a (by simp [ha]) (by simp [h]))
              (fun a ha b hb => hf a (by simp [ha]) b (by simp [hb]))
            refine ⟨w', h1, ?_, ?_⟩
            · simp only [List.map_cons, List.cons.injEq]
              refine ⟨?_, h2⟩
              rw [h3 p hn.1, List.getElem?_set_self hp]
            · intro a ha
              simp only [List.mem_cons, not_or] at ha
              rw [h3 a ha.2, List.getElem?_set_ne (Ne.symm ha.1)]
          · simp only [hfit]
            refine ⟨w, by simp, ?_, fun _ _ => rfl⟩
            simp [hx.1, hx.2]

theorem getValue_some {armed : Bool} (ps : List Nat) {i : Nat} (hi : i < ps.length) :
    Abstract.getValue armed (ps.map some) (i : Int) = .ok ps[i] := by
  rw [Abstract.getValue, if_pos (by rw [List.length_map]; omega)]
  simp [hi]

theorem setFromLoop_eq {armed : Bool} {hash : CType → BitVec 64} (ps qs : List Nat) (hl : ps.length = qs.length) :
    ∀ (n i : Nat) (w : List (Value V)), n + i = ps.length →
    Abstract.setFromLoop armed hash w (ps.map some) (qs.map some) n i =
      copyLoop (TypeErasure.setFrom armed hash) w ((ps.drop i).zip (qs.drop i))
  | 0, i, w, h => by
    have : ps.drop i = [] := List.drop_eq_nil_of_le (by omega)
    simp [Abstract.setFromLoop, this, copyLoop]
  | n + 1, i, w, h => by
    have hi : i < ps.length := by omega
    have hi' : i < qs.length := by omega
    rw [Abstract.setFromLoop, getValue_some ps hi, getValue_some qs hi']
    rw [List.drop_eq_getElem_cons hi, List.drop_eq_getElem_cons hi', List.zip_cons_cons]
    have ih := fun w => setFromLoop_eq (armed := armed) (hash := hash) ps qs hl n (i + 1) w (by omega)
    simp only [copyLoop]
    cases h1 : w[ps[i]]? with
    | none => simp
    | some x =>
      cases h2 : w[qs[i]]? with
      | none => simp
      | some y =>
        dsimp only
        cases h3 : TypeErasure.setFrom armed hash x y with
        | error e => simp
        | ok z =>
          dsimp only
          exact ih _

theorem abstract_setFrom_eq {armed : Bool} {hash : CType → BitVec 64} (w : List (Value V)) (ps qs : List Nat)
    (hl : ps.length = qs.length) : Abstract.setFrom armed hash w (ps.map some) (qs.map some) =
      copyLoop (TypeErasure.setFrom armed hash) w (ps.zip qs) := by
  rw [Abstract.setFrom, if_neg (by simp [hl]), setFromLoop_eq ps qs hl _ 0 w (by simp)]
  rfl

/-- No two of these types are confused. -/
def Told (armed : Bool) (hash : CType → BitVec 64) (S : CType → Prop) : Prop :=
  armed = true ∨ ∀ t u, S t → S u → hash t ≠ 0#64 → hash t = hash u → t = u

theorem told_cast {armed : Bool} {hash : CType → BitVec 64} {S : CType → Prop} (h : Told armed hash S) {t : CType} (ht : S t)
    {v : Value V} (hv : S v.type) : TypeErasure.cast armed hash t v = if t = v.type then .ok v else .error .throws :=
  cast_eq v fun ha hz hx => by
    rcases h with h | h
    · rw [h] at ha; cases ha
    · exact h t v.type ht hv hz hx

theorem told_setFrom {armed : Bool} {hash : CType → BitVec 64} {S : CType → Prop} (h : Told armed hash S) {x y : Value V}
    (hx : S x.type) (hy : S y.type) :
    TypeErasure.setFrom armed hash x y = if sameType x y then .ok y else .error .throws := by
  rw [TypeErasure.setFrom, TypeErasure.getValue, told_cast h hx hy, sameType]
  by_cases he : x.type = y.type
  · simp only [he, if_true, bind, Except.bind, pure, Except.pure, beq_self_eq_true]
  · simp [he, bind, Except.bind]

theorem copyGroup_eq (x y : List K) : copyGroup x y = if sameSize x y then .ok y else .error .throws := by
  rw [copyGroup, sameSize]
  by_cases h : x.length = y.length <;> simp [h]

theorem copied_length (fits : α → α → Bool) : ∀ xs ys : List α, (copied fits xs ys).1.length = xs.length
  | [], _ => by simp [copied]
  | _ :: _, [] => by simp [copied]
  | x :: xs, y :: ys => by
    rw [copied]
    split
    · simp [copied_length fits xs ys]
    · rfl

theorem copied_mem (fits : α → α → Bool) : ∀ (xs ys : List α) (a : α), a ∈ (copied fits xs ys).1 → a ∈ xs ∨ a ∈ ys
  | [], _, a => by simp [copied]
  | _ :: _, [], a => by simp [copied]
  | x :: xs, y :: ys, a => by
    rw [copied]
    split
    · intro h
      rcases List.mem_cons.1 h with h | h
      · right; simp [h]
      · rcases copied_mem fits xs ys a h with h | h
        · left; simp [h]
        · right; simp [h]
    · intro h
      exact .inl h

/-! ### Memory -/

/-- The two memories agree on these vectors and values. -/
theorem holds_frame {m m' : Mem K V} {l : Layout} {p : Plain K V} (h : Holds m l p)
    (hc : ∀ a ∈ l.continuous :: l.discrete, m'.vectors[a]? = m.vectors[a]?)
    (ha : ∀ a ∈ l.abstract, m'.values[a]? = m.values[a]?) : Holds m' l p where
  continuous := by rw [hc _ (by simp)]; exact h.continuous
  nq := h.nq
  nv := h.nv
  nz := h.nz
  velocities := h.velocities
  discrete := by
    rw [← h.discrete]
    exact List.map_congr_left fun a ha' => hc a (by simp [ha'])
  abstract := by
    rw [← h.abstract]
    exact List.map_congr_left fun a ha' => ha a ha'

theorem apart_one {ls : List Layout} (h : Apart ls) {i : Nat} {l : Layout} (hi : ls[i]? = some l) :
    (l.continuous :: l.discrete).Nodup ∧ l.abstract.Nodup := by
  have hm : l ∈ ls := List.mem_of_getElem? hi
  exact ⟨(List.nodup_flatMap.1 h.1).1 l hm, (List.nodup_flatMap.1 h.2).1 l hm⟩

theorem apart_two {ls : List Layout} (h : Apart ls) {i j : Nat} {l k : Layout} (hi : ls[i]? = some l) (hj : ls[j]? = some k)
    (hij : i ≠ j) : (∀ a ∈ l.continuous :: l.discrete, a ∉ k.continuous :: k.discrete) ∧ ∀ a ∈ l.abstract, a ∉ k.abstract := by
  have key : ∀ (f : Layout → List Nat), (ls.flatMap f).Nodup → ∀ a ∈ f l, a ∉ f k := by
    intro f hf a ha ha'
    have hp := (List.nodup_flatMap.1 hf).2
    obtain ⟨hi1, rfl⟩ := List.getElem?_eq_some_iff.1 hi
    obtain ⟨hj1, rfl⟩ := List.getElem?_eq_some_iff.1 hj
    rcases lt_or_gt_of_ne hij with h | h
    · exact (List.pairwise_iff_getElem.1 hp i j hi1 hj1 h) ha ha'
    · exact (List.pairwise_iff_getElem.1 hp j i hj1 hi1 h) ha' ha
  exact ⟨key _ h.1, key _ h.2⟩

/-- A state was changed, and nothing that belongs to another one. -/
theorem refines_set {m : Mem K V} {ls : List Layout} {ps : List (Plain K V)} (ha : Apart ls) (hl : ls.length = ps.length)
    (hh : ∀ (i : Nat) (l : Layout) (p : Plain K V), ls[i]? = some l → ps[i]? = some p → Holds m l p)
    {i : Nat} {l : Layout} (hi : ls[i]? = some l) {m' : Mem K V} {p' : Plain K V} (hp : Holds m' l p')
    (hv : ∀ a, a ∉ l.continuous :: l.discrete → m'.vectors[a]? = m.vectors[a]?)
    (hx : ∀ a, a ∉ l.abstract → m'.values[a]? = m.values[a]?) :
    Refines ⟨m', ls.map Layout.state⟩ (ps.set i p') := by
  refine ⟨ls, rfl, ha, by simpa using hl, fun j k q hj hq => ?_⟩
  by_cases hij : i = j
  · subst hij
    rw [hi] at hj
    injection hj with hj
    subst hj
    have : i < ps.length := by
      rw [← hl]
      exact (List.getElem?_eq_some_iff.1 hi).1
    rw [List.getElem?_set_self this] at hq
    injection hq with hq
    exact hq ▸ hp
  · rw [List.getElem?_set_ne hij] at hq
    have := apart_two ha hi hj hij
    exact holds_frame (hh j k q hj hq) (fun a ha' => hv a fun h => this.1 a h ha') (fun a ha' => hx a fun h => this.2 a h ha')

theorem valuesAt_some {h : Heap K} {a : Nat} {xs : List K} (e : h[a]? = some xs) : valuesAt h a = xs := by
  rw [valuesAt, List.getD_eq_getElem?_getD, e]
  rfl

/-! ### Continuous states -/

theorem continuous_setFrom {m : Mem K V} {l k : Layout} {p o : Plain K V} (hl : Holds m l p) (hk : Holds m k o) :
    l.state.continuous.setFrom m.vectors k.state.continuous =
      if p.q.length = o.q.length ∧ p.v.length = o.v.length ∧ p.z.length = o.z.length
      then .ok (m.vectors.set l.continuous (o.q ++ o.v ++ o.z)) else .error .throws := by
  have h1 := valuesAt_some hl.continuous
  have h2 := valuesAt_some hk.continuous
  have e1 := hl.nq; have e2 := hl.nv; have e3 := hl.nz
  have f1 := hk.nq; have f2 := hk.nv; have f3 := hk.nz
  unfold CState.setFrom
  simp only [Layout.state, Vec.size, h1, h2, List.length_append, Vec.copyToVector, Vec.setFromVector]
  by_cases hc : p.q.length = o.q.length ∧ p.v.length = o.v.length ∧ p.z.length = o.z.length
  · rw [if_pos hc]
    obtain ⟨c1, c2, c3⟩ := hc
    have g1 : (l.nq : Int) = k.nq := by omega
    have g2 : (l.nv : Int) = k.nv := by omega
    have g3 : (l.nz : Int) = k.nz := by omega
    have g4 : ((p.q.length + p.v.length + p.z.length : Nat) : Int) = ((o.q.length + o.v.length + o.z.length : Nat) : Int) := by
      omega
    simp only [g1, g2, g3, g4, throwUnless, decide_true, if_true, bind, Except.bind]
    rw [if_neg (by simp; omega)]
  · rw [if_neg hc]
    by_cases g4 : ((p.q.length + p.v.length + p.z.length : Nat) : Int) = ((o.q.length + o.v.length + o.z.length : Nat) : Int)
    · by_cases g1 : (l.nq : Int) = k.nq
      · by_cases g2 : (l.nv : Int) = k.nv
        · exact absurd ⟨by omega, by omega, by omega⟩ hc
        · simp [g1, g2, g4, throwUnless, bind, Except.bind]
      · simp [g1, g4, throwUnless, bind, Except.bind]
    · simp only [g4, throwUnless, bind, Except.bind, decide_false, Bool.false_eq_true, if_false]

/-! ### Copying states -/

theorem setFrom_ok {armed : Bool} {hash : CType → BitVec 64} {S : CType → Prop} (ht : Told armed hash S) {m : Mem K V}
    {l k : Layout} {p o : Plain K V} (hl : Holds m l p) (hk : Holds m k o) (hn : (l.continuous :: l.discrete).Nodup)
    (hn' : l.abstract.Nodup)
    (hd : l = k ∨ (∀ a ∈ l.continuous :: l.discrete, a ∉ k.continuous :: k.discrete) ∧ ∀ a ∈ l.abstract, a ∉ k.abstract)
    (hab : p.abstract.length = o.abstract.length) (hp : ∀ x ∈ p.abstract, S x.type) (ho : ∀ x ∈ o.abstract, S x.type) :
    ∃ m', l.state.setFrom armed hash m k.state = (m', (p.setFrom o).2) ∧ Holds m' l (p.setFrom o).1 ∧
      (∀ a, a ∉ l.continuous :: l.discrete → m'.vectors[a]? = m.vectors[a]?) ∧
      ∀ a, a ∉ l.abstract → m'.values[a]? = m.values[a]? := by
  unfold State.setFrom
  rw [continuous_setFrom hl hk]
  unfold Plain.setFrom
  by_cases hc : p.q.length = o.q.length ∧ p.v.length = o.v.length ∧ p.z.length = o.z.length
  swap
  · rw [if_neg hc, if_neg hc]
    exact ⟨m, rfl, hl, fun _ _ => rfl, fun _ _ => rfl⟩
  rw [if_pos hc, if_pos hc]
  dsimp only
  rw [List.nodup_cons] at hn
  have hcl : l.continuous < m.vectors.length := (List.getElem?_eq_some_iff.1 hl.continuous).1
  have hld : l.discrete.length = p.discrete.length := by simpa using congrArg List.length hl.discrete
  have hkd : k.discrete.length = o.discrete.length := by simpa using congrArg List.length hk.discrete
  have hla : l.abstract.length = p.abstract.length := by simpa using congrArg List.length hl.abstract
  have hka : k.abstract.length = o.abstract.length := by simpa using congrArg List.length hk.abstract
  unfold Discrete.setFrom
  by_cases hdl : p.discrete.length = o.discrete.length
  swap
  · rw [if_neg hdl, if_neg (by simpa [Layout.state, hld, hkd] using hdl)]
    refine ⟨_, rfl, ⟨?_, by rw [← hc.1]; exact hl.nq, by rw [← hc.2.1]; exact hl.nv, by rw [← hc.2.2]; exact hl.nz,
      hl.velocities, ?_, hl.abstract⟩, ?_, fun _ _ => rfl⟩
    · exact List.getElem?_set_self hcl
    · rw [← hl.discrete]
      exact map_set_notMem _ hn.1
    · intro a ha
      exact List.getElem?_set_ne fun e => ha (by simp [e])
  rw [if_pos hdl, if_pos (by simpa [Layout.state, hld, hkd] using hdl)]
  have hkc : l.continuous ∉ k.discrete := by
    rcases hd with hd | hd
    · rw [← hd]; exact hn.1
    · intro h
      exact hd.1 l.continuous (by simp) (by simp [h])
  obtain ⟨w', h1, h2, h3⟩ := copyLoop_copied (f := copyGroup) (fits := sameSize)
    (m.vectors.set l.continuous (o.q ++ o.v ++ o.z)) l.discrete k.discrete p.discrete o.discrete
    (by rw [map_set_notMem _ hn.1]; exact hl.discrete) (by rw [map_set_notMem _ hkc]; exact hk.discrete) hn.2
    (by omega) (by
      rcases hd with hd | hd
      · left; rw [hd]
      · right
        intro a ha h
        exact hd.1 a (by simp [ha]) (by simp [h]))
    (fun x _ y _ => copyGroup_eq x y)
  have hw1 : w'[l.continuous]? = some (o.q ++ o.v ++ o.z) := by
    rw [h3 _ hn.1]
    exact List.getElem?_set_self hcl
  have hw2 : ∀ a, a ∉ l.continuous :: l.discrete → w'[a]? = m.vectors[a]? := by
    intro a ha
    simp only [List.mem_cons, not_or] at ha
    rw [h3 a ha.2]
    exact List.getElem?_set_ne fun e => ha.1 e.symm
  simp only [Layout.state]
  rw [h1]
  rcases hcd : copied sameSize p.discrete o.discrete with ⟨d, e⟩
  rw [hcd] at h2
  dsimp only at h2
  cases e with
  | some e =>
    dsimp only
    exact ⟨_, rfl, ⟨hw1, by rw [← hc.1]; exact hl.nq, by rw [← hc.2.1]; exact hl.nv, by rw [← hc.2.2]; exact hl.nz,
      hl.velocities, h2, hl.abstract⟩, hw2, fun _ _ => rfl⟩
  | none =>
    dsimp only
    rw [abstract_setFrom_eq _ _ _ (by omega)]
    obtain ⟨x', g1, g2, g3⟩ := copyLoop_copied (f := TypeErasure.setFrom armed hash) (fits := sameType) m.values l.abstract
      k.abstract p.abstract o.abstract hl.abstract hk.abstract hn' (by omega) (by
      rcases hd with hd | hd
      · left; rw [hd]
      · exact .inr hd.2)
      (fun x hx y hy => told_setFrom ht (hp x hx) (ho y hy))
    rw [g1]
    exact ⟨_, rfl, ⟨hw1, by rw [← hc.1]; exact hl.nq, by rw [← hc.2.1]; exact hl.nv, by rw [← hc.2.2]; exact hl.nz,
      hl.velocities, h2, g2⟩, hw2, g3⟩

/-! ### Clones -/

theorem mapM_some {w : List (Value V)} (ps : List Nat) (xs : List (Value V)) (h : ps.map (w[·]?) = xs.map some) :
    (ps.map some).mapM (cloneEntry w) = .ok xs := by
  induction ps generalizing xs with
  | nil =>
    have : xs = [] := by simpa using h.symm
    subst this
    rfl
  | cons p ps ih =>
    cases xs with
    | nil => simp at h
    | cons x xs =>
      simp only [List.map_cons, List.cons.injEq] at h
      rw [List.map_cons, List.mapM_cons]
      rw [ih xs h.2]
      simp only [cloneEntry, Option.bind_some, h.1, bind, Except.bind, pure, Except.pure, TypeErasure.clone]

theorem abstract_clone {w : List (Value V)} (ps : List Nat) (xs : List (Value V)) (h : ps.map (w[·]?) = xs.map some) :
    Abstract.clone w (ps.map some) = .ok (w ++ xs, ((List.range ps.length).map (w.length + ·)).map some) := by
  rw [Abstract.clone, mapM_some ps xs h]
  simp [bind, Except.bind, pure, Except.pure, List.map_map, Function.comp_def]

theorem map_valuesAt {h : Heap K} (ps : List Nat) (xs : List (List K)) (e : ps.map (h[·]?) = xs.map some) :
    ps.map (valuesAt h) = xs := by
  induction ps generalizing xs with
  | nil => simpa using e.symm
  | cons p ps ih =>
    cases xs with
    | nil => simp at e
    | cons x xs =>
      simp only [List.map_cons, List.cons.injEq] at e
      rw [List.map_cons, valuesAt_some e.1, ih xs e.2]

theorem map_append_left {w : List α} (w' : List α) {ps : List Nat} {xs : List α} (h : ps.map (w[·]?) = xs.map some) :
    ps.map ((w ++ w')[·]?) = xs.map some := by
  induction ps generalizing xs with
  | nil => simpa using h
  | cons p ps ih =>
    cases xs with
    | nil => simp at h
    | cons x xs =>
      simp only [List.map_cons, List.cons.injEq] at h ⊢
      refine ⟨?_, ih h.2⟩
      rw [List.getElem?_append_left (List.getElem?_eq_some_iff.1 h.1).1]
      exact h.1

theorem map_fresh (w xs : List α) : ((List.range xs.length).map (w.length + ·)).map ((w ++ xs)[·]?) = xs.map some := by
  apply List.ext_getElem
  · simp
  · intro i h1 h2
    simp at h1
    simp [h1]

theorem mem_lt {w : List α} {ps : List Nat} {xs : List α} (h : ps.map (w[·]?) = xs.map some) : ∀ a ∈ ps, a < w.length := by
  induction ps generalizing xs with
  | nil => simp
  | cons p ps ih =>
    cases xs with
    | nil => simp at h
    | cons x xs =>
      simp only [List.map_cons, List.cons.injEq] at h
      intro a ha
      rcases List.mem_cons.1 ha with rfl | ha
      · exact (List.getElem?_eq_some_iff.1 h.1).1
      · exact ih h.2 a ha

/-- Where the clone is. -/
def cloned (m : Mem K V) (l : Layout) : Layout where
  continuous := m.vectors.length
  nq := l.nq
  nv := l.nv
  nz := l.nz
  discrete := (List.range l.discrete.length).map (m.vectors.length + 1 + ·)
  abstract := (List.range l.abstract.length).map (m.values.length + ·)

theorem clone_ok {m : Mem K V} {l : Layout} {p : Plain K V} (hl : Holds m l p) :
    ∃ vs xs, l.state.clone m = .ok (⟨m.vectors ++ vs, m.values ++ xs⟩, (cloned m l).state) ∧
      Holds ⟨m.vectors ++ vs, m.values ++ xs⟩ (cloned m l) p := by
  have hv := valuesAt_some hl.continuous
  have h1 := map_append_left [p.q ++ p.v ++ p.z] hl.discrete
  have e1 := hl.nq; have e2 := hl.nv; have e3 := hl.nz; have e4 := hl.velocities
  have hld : l.discrete.length = p.discrete.length := by simpa using congrArg List.length hl.discrete
  have hla : l.abstract.length = p.abstract.length := by simpa using congrArg List.length hl.abstract
  have hsz : (Vec.basic m.vectors.length).size (m.vectors ++ [p.q ++ p.v ++ p.z]) = (l.nq : Int) + l.nv + l.nz := by
    rw [Vec.size, valuesAt, List.getD_eq_getElem?_getD]
    simp
    omega
  have hm : CState.make (m.vectors ++ [p.q ++ p.v ++ p.z]) (.basic m.vectors.length) l.nq l.nv l.nz =
      .ok (cloned m l).state.continuous :=
    (make_iff (by simp [StateVec.Spec.Live]) _ _ _ _).2 ⟨⟨by omega, by omega, by omega, hsz⟩, rfl⟩
  refine ⟨(p.q ++ p.v ++ p.z) :: p.discrete, p.abstract, ?_, ⟨?_, e1, e2, e3, e4, ?_, ?_⟩⟩
  · unfold State.clone
    simp only [Layout.state, Vec.size, hv, Discrete.clone, map_valuesAt _ _ h1, abstract_clone _ _ hl.abstract]
    rw [hm]
    simp [bind, Except.bind, pure, Except.pure, cloned, Layout.state]
  · simp [cloned]
  · have := map_fresh (m.vectors ++ [p.q ++ p.v ++ p.z]) p.discrete
    rw [List.length_append, List.length_singleton, List.append_assoc m.vectors, List.singleton_append] at this
    simpa only [cloned, hld] using this
  · simpa only [cloned, hla] using map_fresh m.values p.abstract

theorem apart_cloned {m : Mem K V} {ls : List Layout} (ha : Apart ls) (l : Layout)
    (hv : ∀ k ∈ ls, ∀ a ∈ k.continuous :: k.discrete, a < m.vectors.length)
    (hx : ∀ k ∈ ls, ∀ a ∈ k.abstract, a < m.values.length) : Apart (ls ++ [cloned m l]) := by
  have hinj : ∀ c n : Nat, ((List.range n).map (c + ·)).Nodup := fun c n =>
    List.Nodup.map (fun a b h => by simpa using h) List.nodup_range
  constructor
  · rw [List.flatMap_append, List.nodup_append]
    refine ⟨ha.1, ?_, ?_⟩
    · simp only [List.flatMap_singleton, cloned, List.nodup_cons]
      refine ⟨?_, hinj _ _⟩
      intro h
      obtain ⟨a, -, h⟩ := List.mem_map.1 h
      omega
    · intro a h1 b h2 h
      subst h
      obtain ⟨k, hk, h1⟩ := List.mem_flatMap.1 h1
      have := hv k hk a h1
      simp only [List.flatMap_singleton, cloned] at h2
      rcases List.mem_cons.1 h2 with h2 | h2
      · omega
      · obtain ⟨c, -, h2⟩ := List.mem_map.1 h2
        omega
  · rw [List.flatMap_append, List.nodup_append]
    refine ⟨ha.2, ?_, ?_⟩
    · simp only [List.flatMap_singleton, cloned]
      exact hinj _ _
    · intro a h1 b h2 h
      subst h
      obtain ⟨k, hk, h1⟩ := List.mem_flatMap.1 h1
      have := hx k hk a h1
      simp only [List.flatMap_singleton, cloned] at h2
      obtain ⟨c, -, h2⟩ := List.mem_map.1 h2
      omega

end Maliput.SysState
