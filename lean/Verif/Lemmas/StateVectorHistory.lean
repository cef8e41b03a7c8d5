import Verif.Lemmas.StateVectors

set_option autoImplicit false

namespace Maliput.StateVec
open Maliput Spec

variable {K : Type}

/-- A loop whose steps succeed and keep the shape of the memory does so too. -/
theorem shape_loop {α : Type} (h0 : Heap K) (step : Heap K → α → Except Err (Heap K)) (l : List α)
    (hstep : ∀ x ∈ l, ∀ h', SameShape h0 h' → ∃ h'', step h' x = .ok h'' ∧ SameShape h' h'') :
    ∀ h, SameShape h0 h → ∃ h', l.foldlM step h = .ok h' ∧ SameShape h h' := by
  induction l with
  | nil => exact fun h _ => ⟨h, rfl, SameShape.refl h⟩
  | cons x l ih =>
    intro h hs
    obtain ⟨h1, e1, s1⟩ := hstep x (by simp) h hs
    obtain ⟨h2, e2, s2⟩ := ih (fun y hy => hstep y (by simp [hy])) h1 (SameShape.trans hs s1)
    refine ⟨h2, ?_, SameShape.trans s1 s2⟩
    rw [List.foldlM_cons, e1]
    exact e2

theorem get_some {h : Heap K} {v : Vec} (hv : Live h v) (i : Nat) (hi : i < (range h v).count) : ∃ x, v.get h (i : Int) = .ok x :=
  ⟨_, get_nat hv i hi⟩

theorem put_some {h : Heap K} {v : Vec} (hv : Live h v) (i : Nat) (hi : i < (range h v).count) (x : K) :
    ∃ h', v.put h (i : Int) x = .ok h' ∧ SameShape h h' := ⟨_, put_nat hv i hi x, store_shape _ _ _⟩

theorem setFrom_shape {h : Heap K} {v u : Vec} (hv : Live h v) (hu : Live h u) :
    v.setFrom h u = .error .outOfRange ∨ ∃ h', v.setFrom h u = .ok h' ∧ SameShape h h' := by
  unfold Vec.setFrom
  dsimp only
  split
  · exact .inl rfl
  · rename_i hs
    rw [not_not] at hs
    refine .inr (shape_loop h _ _ (fun k hk h' hs' => ?_) h (SameShape.refl h))
    have h1 := size_count hu
    have h2 := size_count hv
    have hk' := List.mem_range.1 hk
    obtain ⟨x, ex⟩ := get_some ((live_shape hs' u).2 hu) k (by rw [range_shape hs']; omega)
    obtain ⟨h'', e2, s2⟩ := put_some ((live_shape hs' v).2 hv) k (by rw [range_shape hs']; omega) x
    refine ⟨h'', ?_, s2⟩
    rw [ex]
    exact e2

section
variable [CommSemiring K]

theorem scaleAndAdd_shape {h : Heap K} {a : Nat} {u : Vec} (ha : a < h.length) (hu : Live h u) (hs : u.size h = (valuesAt h a).length) (s : K) :
    ∃ h', u.scaleAndAddToValues h s a = .ok h' ∧ SameShape h h' := by
  obtain ⟨h', e, w⟩ := scaleAndAdd_ok ha hu hs s
  exact ⟨h', e, w.1⟩

theorem plusEq_shape {h : Heap K} {v : Vec} (hv : Live h v) (os : List (K × Vec)) (hl : ∀ o ∈ os, Live h o.2) :
    v.plusEqScaled h os = .error .outOfRange ∨ ∃ h', v.plusEqScaled h os = .ok h' ∧ SameShape h h' := by
  unfold Vec.plusEqScaled
  split
  · exact .inl rfl
  · rename_i hs
    have hs' : ∀ o ∈ os, o.2.size h = v.size h := by
      intro o ho
      by_contra hne
      apply hs
      rw [List.any_eq_true]
      exact ⟨o, ho, by simpa using hne⟩
    refine .inr ?_
    unfold Vec.doPlusEqScaled
    cases v with
    | basic a =>
      refine shape_loop h _ _ (fun o ho h' hs2 => ?_) h (SameShape.refl h)
      refine scaleAndAdd_shape (by rw [hs2.1]; exact hv) ((live_shape hs2 _).2 (hl o ho)) ?_ o.1
      rw [size_shape hs2, hs' o ho, ← size_shape hs2]
      rfl
    | sub u f n =>
      refine shape_loop h _ _ (fun k hk h' hs2 => ?_) h (SameShape.refl h)
      have hk' := List.mem_range.1 hk
      have h2 := size_count hv
      have hg : ∀ o ∈ os, ∃ x, o.2.get h' (k : Int) = .ok x := by
        intro o ho
        have h1 := size_count (hl o ho)
        have h3 := hs' o ho
        exact get_some ((live_shape hs2 _).2 (hl o ho)) k (by rw [range_shape hs2]; omega)
      have hsum : ∀ (os : List (K × Vec)), (∀ o ∈ os, ∃ x, o.2.get h' (k : Int) = .ok x) → ∀ acc : K, ∃ y,
          os.foldlM (fun value o => do return value + (← o.2.get h' (k : Int)) * o.1) acc = (.ok y : Except Err K) := by
        intro os
        induction os with
        | nil => exact fun _ acc => ⟨acc, rfl⟩
        | cons o os ih =>
          intro hg acc
          obtain ⟨x, ex⟩ := hg o (by simp)
          rw [List.foldlM_cons, ex]
          exact ih (fun p hp => hg p (by simp [hp])) _
      obtain ⟨y, ey⟩ := hsum os hg 0
      obtain ⟨x, ex⟩ := get_some ((live_shape hs2 _).2 hv) k (by rw [range_shape hs2]; omega)
      obtain ⟨h'', e2, s2⟩ := put_some ((live_shape hs2 _).2 hv) k (by rw [range_shape hs2]; omega) (x + y)
      refine ⟨h'', ?_, s2⟩
      rw [ey, ex]
      exact e2

omit [CommSemiring K] in
theorem mkSub_live {h : Heap K} {u v : Vec} (hu : Live h u) {first num : Int} (e : Vec.mkSub h (some u) first num = .ok v) :
    v = .sub u first num ∧ Live h v := by
  unfold Vec.mkSub at e
  dsimp only at e
  split at e
  · cases e
  · rename_i hc
    cases e
    have := size_count hu
    exact ⟨rfl, hu, by omega, by omega, by omega⟩

omit [CommSemiring K] in
theorem live_append {h : Heap K} {v : Vec} (hv : Live h v) (xs : List K) :
    range (h ++ [xs]) v = range h v ∧ Live (h ++ [xs]) v := by
  have hg : ∀ a < h.length, (h ++ [xs]).getD a [] = h.getD a [] := by
    intro a ha
    simp [List.getD_eq_getElem?_getD, List.getElem?_append, ha]
  induction v with
  | basic a =>
    simp only [Live] at hv
    simp only [range, Live, hg a hv, List.length_append, List.length_cons, List.length_nil, true_and]
    omega
  | sub v f n ih =>
    obtain ⟨h1, h2, h3, h4⟩ := hv
    simp only [range, Live, (ih h1).1, (ih h1).2, h2, h3, h4, and_self]

omit [CommSemiring K] in
theorem contents_append {h : Heap K} {v : Vec} (hv : Live h v) (xs : List K) : contents (h ++ [xs]) v = contents h v := by
  have := (live_range hv).1
  simp only [contents, (live_append hv xs).1]
  congr 2
  simp [List.getD_eq_getElem?_getD, List.getElem?_append, this]

/-- One call. -/
theorem exec_safe (w : World K) (hw : ∀ v ∈ w.vectors, Live w.heap v) (op : Op K) :
    (w.exec op = .error .throws ∨ w.exec op = .error .outOfRange) ∨
    ∃ w', w.exec op = .ok w' ∧ (∀ v ∈ w'.vectors, Live w'.heap v) ∧ w.vectors <+: w'.vectors ∧
      ∀ v ∈ w.vectors, v.size w'.heap = v.size w.heap := by
  have same : ∀ h', SameShape w.heap h' → (∀ v ∈ w.vectors, Live h' v) ∧ ∀ v ∈ w.vectors, v.size h' = v.size w.heap :=
    fun h' hs => ⟨fun v hv => (live_shape hs v).2 (hw v hv), fun v _ => size_shape hs v⟩
  have keep : ∀ r : Except Err (Heap K), (r = .error .outOfRange ∨ ∃ h', r = .ok h' ∧ SameShape w.heap h') →
      ((do return ⟨← r, w.vectors⟩ : Except Err (World K)) = .error .throws ∨
        (do return ⟨← r, w.vectors⟩ : Except Err (World K)) = .error .outOfRange) ∨
      ∃ w', (do return ⟨← r, w.vectors⟩ : Except Err (World K)) = .ok w' ∧ (∀ v ∈ w'.vectors, Live w'.heap v) ∧
        w.vectors <+: w'.vectors ∧ ∀ v ∈ w.vectors, v.size w'.heap = v.size w.heap := by
    rintro r (rfl | ⟨h', rfl, hs⟩)
    · exact .inl (.inr rfl)
    · exact .inr ⟨⟨h', w.vectors⟩, rfl, (same h' hs).1, List.prefix_rfl, (same h' hs).2⟩
  have stay : ∃ w', (.ok w : Except Err (World K)) = .ok w' ∧ (∀ v ∈ w'.vectors, Live w'.heap v) ∧ w.vectors <+: w'.vectors ∧
      ∀ v ∈ w.vectors, v.size w'.heap = v.size w.heap := ⟨w, rfl, hw, List.prefix_rfl, fun _ _ => rfl⟩
  cases op with
  | new values =>
    refine .inr ⟨_, rfl, ?_, List.prefix_append _ _, ?_⟩
    · intro v hv
      simp only [List.mem_append, List.mem_singleton] at hv
      rcases hv with hv | rfl
      · exact (live_append (hw v hv) values).2
      · simp [Live]
    · intro v hv
      dsimp only
      rw [size_count (hw v hv), size_count (live_append (hw v hv) values).2, (live_append (hw v hv) values).1]
  | sub k first num =>
    cases k with
    | none => exact .inl (.inl rfl)
    | some k =>
      unfold World.exec
      dsimp only
      cases hk : w.vectors[k]? with
      | none => exact .inr stay
      | some u =>
        dsimp only
        have hu : Live w.heap u := hw u (List.mem_of_getElem? hk)
        cases hm : Vec.mkSub w.heap (some u) first num with
        | error e =>
          refine .inl (.inl ?_)
          unfold Vec.mkSub at hm
          dsimp only at hm
          split at hm
          · cases hm
            rfl
          · cases hm
        | ok v =>
          refine .inr ⟨_, rfl, ?_, List.prefix_append _ _, fun _ _ => rfl⟩
          intro v' hv'
          simp only [List.mem_append, List.mem_singleton] at hv'
          rcases hv' with hv' | rfl
          · exact hw v' hv'
          · exact (mkSub_live hu hm).2
  | setAtIndex k index x =>
    unfold World.exec
    dsimp only
    cases hk : w.vectors[k]? with
    | none => exact .inr stay
    | some v =>
      dsimp only
      have hv : Live w.heap v := hw v (List.mem_of_getElem? hk)
      apply keep
      by_cases hi : 0 ≤ index ∧ index < v.size w.heap
      · obtain ⟨i, rfl⟩ := Int.eq_ofNat_of_zero_le hi.1
        have := size_count hv
        obtain ⟨h', e, hwr⟩ := setAtIndex_ok hv i (by omega) x
        exact .inr ⟨h', e, hwr.1⟩
      · left
        have : v.checked w.heap index = .error .outOfRange := by
          unfold Vec.checked
          by_cases h0 : index < 0
          · rw [if_pos h0]
          · rw [if_neg h0, if_pos (by omega)]
        unfold Vec.setAtIndex
        rw [this]
        rfl
  | setFrom k l =>
    unfold World.exec
    dsimp only
    cases hk : w.vectors[k]? with
    | none => exact .inr stay
    | some v =>
      cases hl : w.vectors[l]? with
      | none => exact .inr stay
      | some u =>
        dsimp only
        exact keep _ (setFrom_shape (hw v (List.mem_of_getElem? hk)) (hw u (List.mem_of_getElem? hl)))
  | setFromVector k values =>
    unfold World.exec
    dsimp only
    cases hk : w.vectors[k]? with
    | none => exact .inr stay
    | some v =>
      dsimp only
      have hv : Live w.heap v := hw v (List.mem_of_getElem? hk)
      apply keep
      by_cases hs : (values.length : Int) = v.size w.heap
      · obtain ⟨h', e, hwr⟩ := setFromVector_ok hv hs
        exact .inr ⟨h', e, hwr.1⟩
      · left
        unfold Vec.setFromVector
        rw [if_pos hs]
  | setZero k =>
    unfold World.exec
    dsimp only
    cases hk : w.vectors[k]? with
    | none => exact .inr stay
    | some v =>
      dsimp only
      obtain ⟨h', e, hwr⟩ := setZero_ok (hw v (List.mem_of_getElem? hk))
      exact keep _ (.inr ⟨h', e, hwr.1⟩)
  | plusEqScaled k operands =>
    unfold World.exec
    dsimp only
    cases hk : w.vectors[k]? with
    | none => exact .inr stay
    | some v =>
      dsimp only
      apply keep
      refine plusEq_shape (hw v (List.mem_of_getElem? hk)) _ fun o ho => ?_
      rw [List.mem_filterMap] at ho
      obtain ⟨p, _, hp⟩ := ho
      rw [Option.map_eq_some_iff] at hp
      obtain ⟨u, hu, rfl⟩ := hp
      exact hw u (List.mem_of_getElem? hu)

theorem run_safe (ops : List (Op K)) : ∀ (w : World K), (∀ v ∈ w.vectors, Live w.heap v) →
    ∃ w', w.run ops = .ok w' ∧ (∀ v ∈ w'.vectors, Live w'.heap v) ∧ w.vectors <+: w'.vectors ∧
      ∀ v ∈ w.vectors, v.size w'.heap = v.size w.heap := by
  induction ops with
  | nil => exact fun w hw => ⟨w, rfl, hw, List.prefix_rfl, fun _ _ => rfl⟩
  | cons op ops ih =>
    intro w hw
    unfold World.run
    rcases exec_safe w hw op with (e | e) | ⟨w1, e, l1, p1, s1⟩
    · rw [e]
      exact ih w hw
    · rw [e]
      exact ih w hw
    · rw [e]
      obtain ⟨w2, e2, l2, p2, s2⟩ := ih w1 l1
      exact ⟨w2, e2, l2, p1.trans p2, fun v hv => (s2 v (p1.subset hv)).trans (s1 v hv)⟩
end

theorem make_iff {h : Heap K} {s : Vec} (hs : Live h s) (nq nv nz : Int) (c : CState) : CState.make h s nq nv nz = .ok c ↔
    (0 ≤ nv ∧ nv ≤ nq ∧ 0 ≤ nz ∧ s.size h = nq + nv + nz) ∧
      c = ⟨s, .sub s 0 nq, .sub s nq nv, .sub s (nq + nv) nz⟩ := by
  have hc := size_count hs
  unfold CState.make
  by_cases h1 : s.size h = nq + nv + nz
  · rw [if_neg (not_not.2 h1)]
    by_cases h2 : nv > nq
    · rw [if_pos h2]
      constructor
      · intro e; cases e
      · intro e; omega
    · rw [if_neg h2]
      unfold Vec.mkSub
      dsimp only
      by_cases a1 : (0 : Int) < 0 ∨ nq < 0 ∨ 0 + nq > s.size h
      · rw [if_pos a1]
        constructor
        · intro e; cases e
        · intro e; omega
      · rw [if_neg a1]
        by_cases a2 : nq < 0 ∨ nv < 0 ∨ nq + nv > s.size h
        · rw [if_pos a2]
          constructor
          · intro e; cases e
          · intro e; omega
        · rw [if_neg a2]
          by_cases a3 : nq + nv < 0 ∨ nz < 0 ∨ nq + nv + nz > s.size h
          · rw [if_pos a3]
            constructor
            · intro e; cases e
            · intro e; omega
          · rw [if_neg a3]
            constructor
            · intro e
              cases e
              exact ⟨by omega, rfl⟩
            · rintro ⟨_, rfl⟩
              rfl
  · rw [if_pos h1]
    constructor
    · intro e; cases e
    · intro e; omega

/-- The three parts of a state. -/
theorem parts {h : Heap K} {s : Vec} (hs : Live h s) {nq nv nz : Int} (hp : 0 ≤ nv ∧ nv ≤ nq ∧ 0 ≤ nz ∧ s.size h = nq + nv + nz) :
    Live h (.sub s 0 nq) ∧ Live h (.sub s nq nv) ∧ Live h (.sub s (nq + nv) nz) := by
  have hc := size_count hs
  refine ⟨⟨hs, ?_⟩, ⟨hs, ?_⟩, ⟨hs, ?_⟩⟩ <;> omega

theorem parts_apart {h : Heap K} {s : Vec} {nq nv nz : Int} (hp : 0 ≤ nv ∧ nv ≤ nq ∧ 0 ≤ nz ∧ s.size h = nq + nv + nz) :
    Apart h (.sub s 0 nq) (.sub s nq nv) ∧ Apart h (.sub s 0 nq) (.sub s (nq + nv) nz) ∧
      Apart h (.sub s nq nv) (.sub s (nq + nv) nz) := by
  refine ⟨?_, ?_, ?_⟩ <;>
  · intro i hi j hj e
    simp only [element, range, Prod.mk.injEq] at e hi hj
    omega

theorem apart_symm {h : Heap K} {v u : Vec} (ha : Apart h v u) : Apart h u v := fun i hi j hj e => ha j hj i hi e.symm

theorem sub_getElem? {h : Heap K} (s : Vec) (f n : Int) (i : Nat) : (contents h (.sub s f n))[i]? =
    if i < n.toNat then (valuesAt h (range h s).base)[(range h s).start + f.toNat + i]? else none := contents_getElem? _ _

theorem contents_parts {h : Heap K} {s : Vec} (hs : Live h s) {nq nv nz : Int}
    (hp : 0 ≤ nv ∧ nv ≤ nq ∧ 0 ≤ nz ∧ s.size h = nq + nv + nz) :
    contents h s = contents h (.sub s 0 nq) ++ contents h (.sub s nq nv) ++ contents h (.sub s (nq + nv) nz) := by
  have hc := size_count hs
  obtain ⟨l1, l2, l3⟩ := parts hs hp
  apply List.ext_getElem?
  intro i
  have e1 : (contents h (.sub s 0 nq)).length = nq.toNat := contents_length l1
  have e2 : (contents h (.sub s nq nv)).length = nv.toNat := contents_length l2
  rw [List.getElem?_append, List.getElem?_append, List.length_append, e1, e2, contents_getElem?, sub_getElem?, sub_getElem?,
    sub_getElem?]
  by_cases c1 : i < nq.toNat
  · rw [if_pos (by omega), if_pos (by omega), if_pos c1, if_pos c1]
    congr 1
  · by_cases c2 : i < nq.toNat + nv.toNat
    · rw [if_pos (by omega), if_pos c2, if_neg c1, if_pos (by omega)]
      congr 1
      omega
    · rw [if_neg c2]
      by_cases c3 : i < (range h s).count
      · rw [if_pos c3, if_pos (by omega)]
        congr 1
        omega
      · rw [if_neg c3, if_neg (by omega)]

theorem mapM_map {α β : Type} (l : List α) (f : α → Except Err β) (g : α → β) (hf : ∀ x ∈ l, f x = .ok (g x)) : l.mapM f = .ok (l.map g) := by
  induction l with
  | nil => rfl
  | cons x l ih =>
    rw [List.mapM_cons, hf x (by simp), ih fun y hy => hf y (by simp [hy])]
    rfl

theorem eraseDups_nodup {α : Type} [BEq α] [LawfulBEq α] (l : List α) (hl : l.Nodup) : l.eraseDups = l := by
  induction l with
  | nil => rfl
  | cons x l ih =>
    rw [List.eraseDups_cons]
    rw [List.nodup_cons] at hl
    have : (l.filter fun b => !b == x) = l := by
      rw [List.filter_eq_self]
      intro b hb
      have : b ≠ x := fun e => hl.1 (e ▸ hb)
      simpa using this
    rw [this, ih hl.2]

end Maliput.StateVec
